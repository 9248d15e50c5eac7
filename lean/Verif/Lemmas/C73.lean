import Verif.Lemmas.C71Cut
import Verif.Lemmas.C71Tables
import Verif.Spec.C73
import Mathlib.Data.List.Count

/-! Lemmas for C73: the users of the halfedges. -/
namespace Mcut.Trace
open Mcut.Hmesh Mcut.Registry Mcut.CutEdges Mcut.Boundary
variable {P : Type} {d : P} {ps : Mesh P} {base : Nat} {pts : Nat → List Nat} {sort : Nat → Nat → List Nat → List Nat} {edges : List Nat} {c : CutEdges.St P} {st : Boundary.St P}
  {pieces : Nat → List Nat} {reg : List (Nat × Nat)}

theorem noteAll_spec (n i : Nat) : ∀ (p : List Nat) (T : Nat → List Nat), (∀ h ∈ p, h < n) → ∃ T', noteAll n i p T = some T' ∧ ∀ x, T' x = T x ++ List.replicate (p.count x) i := by
  intro p
  induction p with
  | nil => intro T _; exact ⟨T, rfl, by simp⟩
  | cons h p ih =>
    intro T hl
    obtain ⟨T', e, hT⟩ := ih (fun x => if x = h then T x ++ [i] else T x) (fun x hx => hl x (List.mem_cons_of_mem _ hx))
    refine ⟨T', ?_, ?_⟩
    · unfold noteAll at e ⊢
      rw [List.foldlM_cons]
      unfold noteOne
      rw [if_pos (hl h List.mem_cons_self)]
      exact e
    · intro x
      rw [hT x, List.count_cons]
      by_cases hx : x = h
      · subst hx
        simp [List.replicate_succ]
      · rw [if_neg hx]
        have : ¬ (h == x) = true := by simpa using fun h' => hx h'.symm
        rw [if_neg this]; rfl

/-- The indexes of the polygons that contain `x`, once for each time. -/
def usersOf (x : Nat) : Nat → List (List Nat) → List Nat
  | _, [] => []
  | i, p :: ps => List.replicate (p.count x) i ++ usersOf x (i + 1) ps

theorem usersFrom_spec (n : Nat) : ∀ (l : List (List Nat)) (i : Nat) (T : Nat → List Nat), (∀ p ∈ l, ∀ h ∈ p, h < n) →
    ∃ T', usersFrom n i l T = some T' ∧ ∀ x, T' x = T x ++ usersOf x i l := by
  intro l
  induction l with
  | nil => intro i T _; exact ⟨T, rfl, by simp [usersOf]⟩
  | cons p l ih =>
    intro i T hl
    obtain ⟨T1, e1, h1⟩ := noteAll_spec n i p T (hl p List.mem_cons_self)
    obtain ⟨T2, e2, h2⟩ := ih (i + 1) T1 (fun q hq => hl q (List.mem_cons_of_mem _ hq))
    refine ⟨T2, ?_, ?_⟩
    · unfold usersFrom; rw [e1]; exact e2
    · intro x; rw [h2, h1, List.append_assoc]; rfl

theorem usersOf_spec (x : Nat) : ∀ (l : List (List Nat)) (i : Nat), (∀ p ∈ l, p.Nodup) → (usersOf x i l).Pairwise (· < ·) ∧
    (∀ j, j ∈ usersOf x i l ↔ i ≤ j ∧ ∃ p, l[j - i]? = some p ∧ x ∈ p) := by
  intro l
  induction l with
  | nil => intro i _; simp [usersOf]
  | cons p l ih =>
    intro i hl
    obtain ⟨h1, h2⟩ := ih (i + 1) (fun q hq => hl q (List.mem_cons_of_mem _ hq))
    have hc := List.nodup_iff_count_le_one.1 (hl p List.mem_cons_self) x
    unfold usersOf
    constructor
    · rw [List.pairwise_append]
      refine ⟨?_, h1, ?_⟩
      · rcases Nat.le_one_iff_eq_zero_or_eq_one.1 hc with h | h <;> rw [h] <;> simp
      · intro a ha b hb
        rw [(List.mem_replicate.1 ha).2]
        have := ((h2 b).1 hb).1
        omega
    · intro j
      rw [List.mem_append, List.mem_replicate, h2]
      have hp : p.count x ≠ 0 ↔ x ∈ p := by rw [Nat.ne_zero_iff_zero_lt, List.count_pos_iff]
      rw [hp]
      constructor
      · rintro (⟨h3, rfl⟩ | ⟨h3, q, h4, h5⟩)
        · exact ⟨Nat.le_refl _, p, by simp, h3⟩
        · refine ⟨by omega, q, ?_, h5⟩
          rw [show j - i = (j - (i + 1)) + 1 by omega, List.getElem?_cons_succ]; exact h4
      · rintro ⟨h3, q, h4, h5⟩
        by_cases hj : j = i
        · subst hj
          rw [Nat.sub_self, List.getElem?_cons_zero] at h4
          left; rw [Option.some.inj h4]; exact ⟨h5, rfl⟩
        · right
          rw [show j - i = (j - (i + 1)) + 1 by omega, List.getElem?_cons_succ] at h4
          exact ⟨by omega, q, h4, h5⟩

/-- The table is right. -/
theorem users_spec {n : Nat} {l : List (List Nat)} (hn : ∀ p ∈ l, ∀ h ∈ p, h < n) (hs : ∀ p ∈ l, p.Nodup) :
    ∃ T, users n l = some T ∧ ∀ x, (T x).Pairwise (· < ·) ∧ ∀ i, i ∈ T x ↔ ∃ p, l[i]? = some p ∧ x ∈ p := by
  obtain ⟨T, e, h⟩ := usersFrom_spec n l 0 (fun _ => []) hn
  refine ⟨T, e, fun x => ?_⟩
  rw [h x, List.nil_append]
  obtain ⟨h1, h2⟩ := usersOf_spec x l 0 hs
  refine ⟨h1, fun i => ?_⟩
  rw [h2]; simp

/-- An index outside of the vector is an access outside of it. -/
theorem noteAll_none {n i : Nat} : ∀ {p : List Nat} {T : Nat → List Nat}, (∃ h ∈ p, n ≤ h) → noteAll n i p T = none := by
  intro p
  induction p with
  | nil => rintro T ⟨h, hh, -⟩; cases hh
  | cons a p ih =>
    rintro T ⟨h, hh, hn⟩
    unfold noteAll
    rw [List.foldlM_cons]
    unfold noteOne
    by_cases ha : a < n
    · rw [if_pos ha]
      rcases List.mem_cons.1 hh with rfl | hh
      · omega
      · exact ih ⟨h, hh, hn⟩
    · rw [if_neg ha]; rfl

/-! ### One face -/

theorem Given.old' (G : Given d ps base pts sort edges c st pieces reg) {h : Nat} (hl : LiveH ps h) : src ps h < base ∧ ps.target h < base := by
  have C := C29_consistent G.ready.psOk
  obtain ⟨s1, -, -, -, s5⟩ := src_of G.ready.psOk hl
  exact ⟨by rw [s1]; exact G.ready.old _ (C.opp _ s5).2.2.2.2.2.2.1, G.ready.old _ (C.opp _ hl).2.2.2.2.2.2.1⟩

theorem Given.path_nodup (G : Given d ps base pts sort edges c st pieces reg) {h : Nat} (hl : LiveH ps h) : (pathOf ps pts sort h).Nodup := by
  obtain ⟨q, q1, q2⟩ := G.path hl
  obtain ⟨o1, o2⟩ := G.old' hl
  have hb : ∀ v ∈ q, base ≤ v := fun v hv => ((G.ready.points _).2 v (q1.subset hv)).1
  rw [q2, List.nodup_cons, List.nodup_append]
  refine ⟨?_, q1.nodup_iff.2 (G.ready.points _).1, by simp, ?_⟩
  · intro h'
    rcases List.mem_append.1 h' with h' | h'
    · have := hb _ h'; omega
    · exact (src_of G.ready.psOk hl).2.1 (by simpa using h')
  · intro a ha b hb' hab
    have := hb a ha
    rw [List.mem_singleton] at hb'
    omega

/-- A live halfedge is given by its edge and its source. -/
theorem half_eq {m : Mesh P} (hr : Reachable d m) {x y : Nat} (hx : LiveH m x) (he : edgeOf x = edgeOf y) : x = y ∨ (x = opposite y ∧ src m x = m.target y ∧ m.target x = src m y) := by
  rcases half_of he with h' | h' <;> rcases half_of (rfl : edgeOf y = edgeOf y) with h'' | h''
  · left; rw [h', ← h'']
  · right
    have ho : x = opposite y := by rw [h', h'']; unfold opposite halfedgeOf edgeOf; rw [if_neg (by omega)]; omega
    have hy : opposite x = y := by rw [h', h'']; unfold opposite halfedgeOf edgeOf; rw [if_pos (by omega)]; omega
    obtain ⟨s1, -, s3, -⟩ := src_of hr hx
    rw [hy] at s1 s3
    exact ⟨ho, s1, s3.symm⟩
  · right
    have ho : x = opposite y := by rw [h', h'']; unfold opposite halfedgeOf edgeOf; rw [if_pos (by omega)]; omega
    have hy : opposite x = y := by rw [h', h'']; unfold opposite halfedgeOf edgeOf; rw [if_neg (by omega)]; omega
    obtain ⟨s1, -, s3, -⟩ := src_of hr hx
    rw [hy] at s1 s3
    exact ⟨ho, s1, s3.symm⟩
  · left; rw [h', ← h'']

/-- A part of a halfedge is one of the halfedges along it. -/
theorem Given.part_iff (G : Given d ps base pts sort edges c st pieces reg) {h x : Nat} (hl : LiveH ps h) : PartOf ps st.m0 pts sort pieces h x ↔ x ∈ side ps st.m0 pts sort pieces h := by
  obtain ⟨s1, s2, s3, s4⟩ := G.sides hl
  obtain ⟨q, q1, q2⟩ := G.path hl
  have hnd := G.path_nodup hl
  have hpo : ∀ e, e ∈ piecesOf pieces h ↔ e ∈ pieces (edgeOf h) := by
    intro e; unfold piecesOf; split
    · rfl
    · exact List.mem_reverse
  have hlen : (pathOf ps pts sort h).length = (side ps st.m0 pts sort pieces h).length + 1 := by
    have := congrArg List.length s2
    rw [List.length_map, List.length_dropLast, q2] at this
    rw [q2]; simp at this ⊢; omega
  -- the position of a halfedge
  have hpos : ∀ i y, (side ps st.m0 pts sort pieces h)[i]? = some y → (pathOf ps pts sort h)[i]? = some (src st.m0 y) ∧ (pathOf ps pts sort h)[i + 1]? = some (st.m0.target y) := by
    intro i y hy
    have hlt : i < (side ps st.m0 pts sort pieces h).length := (List.getElem?_eq_some_iff.1 hy).1
    constructor
    · have : ((side ps st.m0 pts sort pieces h).map (src st.m0))[i]? = some (src st.m0 y) := by rw [List.getElem?_map, hy]; rfl
      rw [s2, List.getElem?_dropLast, if_pos (by omega)] at this
      exact this
    · have : ((side ps st.m0 pts sort pieces h).map st.m0.target)[i]? = some (st.m0.target y) := by rw [List.getElem?_map, hy]; rfl
      rw [s3, List.getElem?_tail] at this
      exact this
  constructor
  · rintro ⟨-, hx, he, a, b, hab⟩
    -- the halfedge of the side with the same edge
    have hm : edgeOf x ∈ (side ps st.m0 pts sort pieces h).map edgeOf := by rw [s1]; exact (hpo _).2 he
    obtain ⟨y, hy, hye⟩ := List.mem_map.1 hm
    rcases half_eq G.divided.valid hx hye.symm with rfl | ⟨-, h1, h2⟩
    · exact hy
    · exfalso
      obtain ⟨i, hi⟩ := List.mem_iff_getElem?.1 hy
      obtain ⟨p1, p2⟩ := hpos i y hi
      have k1 : (pathOf ps pts sort h)[a.length]? = some (src st.m0 x) := by rw [← hab]; simp
      have k2 : (pathOf ps pts sort h)[a.length + 1]? = some (st.m0.target x) := by rw [← hab]; simp
      rw [h1] at k1
      rw [h2] at k2
      have l1 := (List.getElem?_eq_some_iff.1 p1).1
      have l2 := (List.getElem?_eq_some_iff.1 p2).1
      have e1 := (List.getElem?_inj l2 hnd).1 (p2.trans k1.symm)
      have e2 := (List.getElem?_inj l1 hnd).1 (p1.trans k2.symm)
      omega
  · intro hx
    obtain ⟨i, hi⟩ := List.mem_iff_getElem?.1 hx
    obtain ⟨p1, p2⟩ := hpos i x hi
    refine ⟨hl, s4 x hx, ?_, ?_⟩
    · rw [← hpo, ← s1]; exact List.mem_map.2 ⟨x, hx, rfl⟩
    · have hlt : i + 1 < (pathOf ps pts sort h).length := (List.getElem?_eq_some_iff.1 p2).1
      refine ⟨(pathOf ps pts sort h).take i, (pathOf ps pts sort h).drop (i + 2), ?_⟩
      obtain ⟨_, e1⟩ := List.getElem?_eq_some_iff.1 p1
      obtain ⟨_, e2⟩ := List.getElem?_eq_some_iff.1 p2
      rw [← e1, ← e2]
      conv_rhs => rw [← List.take_append_drop i (pathOf ps pts sort h), List.drop_eq_getElem_cons (by omega), List.drop_eq_getElem_cons hlt]
      simp

/-- The edge of a part belongs to one edge. -/
theorem Given.part_edge (G : Given d ps base pts sort edges c st pieces reg) {e e' x : Nat} (he : LiveE ps e) (he' : LiveE ps e') (hx : x ∈ pieces e) (hx' : x ∈ pieces e') : e = e' := by
  by_contra hne
  have hnd : (edges.flatMap pieces).Nodup := G.divided.numbers.1.nodup_iff.2 List.nodup_range'
  rw [List.nodup_flatMap] at hnd
  exact disjoint_of hnd.2 ((G.all.2 e).2 he) ((G.all.2 e').2 he') hne hx hx'

/-- A halfedge along "ps" is part of one halfedge only. -/
theorem Given.part_one (G : Given d ps base pts sort edges c st pieces reg) {h h' x : Nat} (hx : PartOf ps st.m0 pts sort pieces h x) (hx' : PartOf ps st.m0 pts sort pieces h' x) : h = h' := by
  have W := reachable_wf G.ready.psOk
  have l1 := (W.liveH_iff h).1 hx.1
  have l2 := (W.liveH_iff h').1 hx'.1
  have he := G.part_edge l1 l2 hx.2.2.1 hx'.2.2.1
  rcases half_eq G.ready.psOk hx.1 he with h1 | ⟨ho, -, -⟩
  · exact h1
  · -- the path of the opposite halfedge is reversed
    exfalso
    have hrev : pathOf ps pts sort h = (pathOf ps pts sort h').reverse := by
      unfold pathOf
      have : edgeOf h = edgeOf h' := he
      rw [this]
      have hpar : h % 2 = 1 ↔ ¬ h' % 2 = 1 := by rw [ho]; unfold opposite; split <;> omega
      by_cases hh : h % 2 = 1
      · rw [if_pos hh, if_neg (hpar.1 hh), List.reverse_reverse]
      · rw [if_neg hh, if_pos (by omega)]
    have hnd := G.path_nodup hx'.1
    obtain ⟨a, b, hab⟩ := hx.2.2.2
    obtain ⟨a', b', hab'⟩ := hx'.2.2.2
    rw [hrev, ← hab'] at hab
    rw [← hab'] at hnd
    have hne := (src_of G.divided.valid hx.2.1).2.1
    simp only [List.append_assoc, List.reverse_append, List.reverse_cons, List.nil_append, List.cons_append] at hab hnd
    have e1 := congrArg (fun l => l[a.length]?) hab
    have e2 := congrArg (fun l => l[a.length + 1]?) hab
    have nd2 : (b'.reverse ++ st.m0.target x :: src st.m0 x :: a'.reverse).Nodup := by
      have := List.nodup_reverse.2 hnd
      simpa using this
    have l0 : a.length + 1 < (b'.reverse ++ st.m0.target x :: src st.m0 x :: a'.reverse).length := by rw [← hab]; simp
    simp only [List.getElem?_append_right (Nat.le_refl a.length), Nat.sub_self, List.getElem?_cons_zero] at e1
    have : (a ++ src st.m0 x :: st.m0.target x :: b)[a.length + 1]? = some (st.m0.target x) := by simp
    rw [this] at e2
    have i1 : (b'.reverse ++ st.m0.target x :: src st.m0 x :: a'.reverse)[b'.length]? = some (st.m0.target x) := by simp [List.getElem?_append]
    have i2 : (b'.reverse ++ st.m0.target x :: src st.m0 x :: a'.reverse)[b'.length + 1]? = some (src st.m0 x) := by simp [List.getElem?_append]
    have f1 := (List.getElem?_inj (by omega) nd2).1 (e1.symm.trans i2.symm)
    have f2 := (List.getElem?_inj l0 nd2).1 (e2.symm.trans i1.symm)
    omega

/-- Every new halfedge is part of a halfedge. -/
theorem Given.part_every (G : Given d ps base pts sort edges c st pieces reg) {x : Nat} (hl : LiveH st.m0 x) (hn : c.m0.nE ≤ edgeOf x) : ∃ h, PartOf ps st.m0 pts sort pieces h x := by
  have W := reachable_wf G.ready.psOk
  have hlt : edgeOf x < st.m0.nE := (((reachable_wf G.divided.valid).liveH_iff x).1 hl).1
  have hm : edgeOf x ∈ edges.flatMap pieces := by
    rw [G.divided.numbers.1.mem_iff, List.mem_range'_1]
    omega
  obtain ⟨e, he, hx⟩ := List.mem_flatMap.1 hm
  have hle := (G.all.2 e).1 he
  have e0 : edgeOf (halfedgeOf e 0) = e := by unfold edgeOf halfedgeOf; omega
  have e1 : edgeOf (halfedgeOf e 1) = e := by unfold edgeOf halfedgeOf; omega
  have l0 : LiveH ps (halfedgeOf e 0) := live_half G.ready.psOk hle 0 (by omega)
  have l1 : LiveH ps (halfedgeOf e 1) := live_half G.ready.psOk hle 1 (by omega)
  obtain ⟨s1, -⟩ := G.sides l1
  have hy : edgeOf x ∈ (side ps st.m0 pts sort pieces (halfedgeOf e 1)).map edgeOf := by
    rw [s1]; unfold piecesOf
    rw [if_pos (by unfold halfedgeOf; omega), e1]; exact hx
  obtain ⟨y, hy1, hy2⟩ := List.mem_map.1 hy
  rcases half_eq G.divided.valid hl hy2.symm with rfl | ⟨ho, t1, t2⟩
  · exact ⟨_, (G.part_iff l1).2 hy1⟩
  · have hp := (G.part_iff l1).2 hy1
    refine ⟨_, l0, hl, by rw [e0]; exact hx, ?_⟩
    have h1 : pathOf ps pts sort (halfedgeOf e 0) = (pathOf ps pts sort (halfedgeOf e 1)).reverse := by
      unfold pathOf
      rw [if_neg (by unfold halfedgeOf; omega), if_pos (by unfold halfedgeOf; omega), e0, e1]
    rw [h1, t1, t2]
    have := List.reverse_infix.2 hp.2.2.2
    simpa using this

theorem eq_of_maps {m : Mesh P} (hr : Reachable d m) : ∀ (l l' : List Nat), (∀ x ∈ l, LiveH m x) → l.map edgeOf = l'.map edgeOf → l.map (src m) = l'.map (src m) → l = l' := by
  intro l
  induction l with
  | nil => intro l' _ h _; symm; simpa using h.symm
  | cons x l ih =>
    intro l' hl he hs
    cases l' with
    | nil => simp at he
    | cons y l' =>
      simp only [List.map_cons, List.cons.injEq] at he hs
      have hx := hl x List.mem_cons_self
      rw [ih l' (fun z hz => hl z (List.mem_cons_of_mem _ hz)) he.2 hs.2]
      rcases half_eq hr hx he.1 with rfl | ⟨-, h1, h2⟩
      · rfl
      · exact absurd (hs.1.trans h2.symm) (src_of hr hx).2.1

/-- A copy of a face is its outline. -/
theorem Given.copy_eq (G : Given d ps base pts sort edges c st pieces reg) {f : Nat} (hf : LiveF ps f) (hc : c.faceEdges f = []) {p : List Nat} (hp : CopyOf ps st.m0 pieces f p) :
    p = outline ps st.m0 pts sort pieces f := by
  have hpts : ∀ h ∈ ps.fh f, pts (edgeOf h) = [] := by
    intro h hh
    obtain ⟨hl, hle, hfh⟩ := G.live hf hh
    by_contra hne
    have hon : OnEdge ps (edgeOf h) f := by
      unfold OnEdge
      rcases half_of (rfl : edgeOf h = edgeOf h) with h' | h'
      · left; rw [← h']; exact hfh
      · right; rw [← h']; exact hfh
    exact G.ready.entries _ _ hle hne hon hc
  refine eq_of_maps G.divided.valid _ _ ?_ ?_ ?_
  · intro x hx
    have : edgeOf x ∈ p.map edgeOf := List.mem_map.2 ⟨x, hx, rfl⟩
    rw [hp.edges] at this
    obtain ⟨h, hh, hx'⟩ := List.mem_flatMap.1 this
    exact ((reachable_wf G.divided.valid).liveH_iff x).2 (G.pieceLive (G.live hf hh).2.1 _ hx').1
  · rw [hp.edges]
    unfold outline
    rw [List.map_flatMap]
    refine List.flatMap_congr (fun h hh => ?_)
    obtain ⟨hl, hle, -⟩ := G.live hf hh
    rw [(G.sides hl).1]
    obtain ⟨x, hx, -⟩ := G.divided.plain _ ((G.all.2 _).2 hle) (hpts h hh)
    unfold piecesOf; rw [hx]; split <;> simp
  · rw [hp.sources]
    unfold outline
    rw [List.map_flatMap]
    have : (ps.fh f).map (src ps) = (ps.fh f).flatMap (fun h => [src ps h]) := by induction ps.fh f <;> simp_all
    rw [this]
    refine List.flatMap_congr (fun h hh => ?_)
    obtain ⟨hl, -, -⟩ := G.live hf hh
    obtain ⟨q, q1, q2⟩ := G.path hl
    rw [hpts h hh] at q1
    obtain rfl := List.perm_nil.1 q1
    rw [(G.sides hl).2.1, q2]; simp

/-- Connected with a point on an edge of the face: connected with its outline. -/
theorem Given.linked (G : Given d ps base pts sort edges c st pieces reg) {f : Nat} (hf : LiveF ps f) {E I : List Nat} (hE : ∀ x, x ∈ E ↔ x ∈ outline ps st.m0 pts sort pieces f)
    (hI : ∀ h, h ∈ I ↔ edgeOf h ∈ c.faceEdges f) {x : Nat} (ha : Anchored ps pts c st.m0 f x) : Linked st.m0 E I x := by
  obtain ⟨v, e, r, hle, ho, hv⟩ := ha
  -- the halfedge of the face on that edge
  obtain ⟨h, hh, rfl⟩ : ∃ h ∈ ps.fh f, edgeOf h = e := by
    have key : ∀ i, ps.face (halfedgeOf e i) = some f → i < 2 → ∃ h ∈ ps.fh f, edgeOf h = e := by
      intro i hi hi2
      refine ⟨halfedgeOf e i, ?_, by unfold edgeOf halfedgeOf; omega⟩
      rcases (reachable_wf G.ready.psOk).h_face _ f (live_half G.ready.psOk hle i hi2) hi with ⟨h1, -⟩ | ⟨-, -, h1⟩
      · have := hf.1; omega
      · exact h1
    rcases ho with ho | ho
    · exact key 0 ho (by omega)
    · exact key 1 ho (by omega)
  have hl := (G.live hf hh).1
  obtain ⟨q, q1, q2⟩ := G.path hl
  have hs := (G.sides hl).2.1
  rw [q2, ← List.cons_append, List.dropLast_concat] at hs
  have hm : v ∈ (side ps st.m0 pts sort pieces h).map (src st.m0) := by rw [hs]; exact List.mem_cons_of_mem _ (q1.symm.subset hv)
  obtain ⟨y, hy1, hy2⟩ := List.mem_map.1 hm
  refine ⟨y, (hE y).2 (List.mem_flatMap.2 ⟨h, hh, hy1⟩), ?_⟩
  rw [hy2]
  refine Relation.ReflTransGen.mono ?_ _ _ r
  rintro a b ⟨z, hz, hj⟩
  obtain ⟨k0, k1, k2⟩ := G.cut_kept hz
  have hj' : Joins st.m0 z a b := by unfold Joins at hj ⊢; rw [k1, k2]; exact hj
  obtain ⟨o1, o2, o3, -⟩ := out_spec G.divided.valid k0 hj'
  exact ⟨_, (hI _).2 (by rw [o3]; exact hz), o1, o2⟩

/-- The halfedges in the polygons of one face. -/
structure FaceUses (ps : Mesh P) (pts : Nat → List Nat) (sort : Nat → Nat → List Nat → List Nat) (pieces : Nat → List Nat) (c : CutEdges.St P) (m0 : Mesh P) (f : Nat) (l : List (List Nat)) : Prop where
  nodup : l.flatten.Nodup
  live : ∀ x ∈ l.flatten, LiveH m0 x
  boundary : ∀ x, c.m0.nE ≤ edgeOf x → (x ∈ l.flatten ↔ x ∈ outline ps m0 pts sort pieces f)
  cut : ∀ x ∈ l.flatten, edgeOf x < c.m0.nE → edgeOf x ∈ c.faceEdges f
  whole : ∀ x, edgeOf x ∈ c.faceEdges f → Anchored ps pts c m0 f x → x ∈ l.flatten

theorem Given.outline_new (G : Given d ps base pts sort edges c st pieces reg) {f x : Nat} (hf : LiveF ps f) (hx : x ∈ outline ps st.m0 pts sort pieces f) :
    LiveH st.m0 x ∧ c.m0.nE ≤ edgeOf x := by
  obtain ⟨h, hh, hx'⟩ := List.mem_flatMap.1 hx
  obtain ⟨h1, h2, -⟩ := G.on_side hf hh hx'
  exact ⟨h1, (G.pieceLive (G.live hf hh).2.1 _ h2).2⟩

/-- The use of the halfedges by the polygons of one face. -/
theorem Given.uses (G : Given d ps base pts sort edges c st pieces reg) {part : (Nat → Bool) → List Nat → List Nat × List Nat} (hp : IsPartition part) {f : Nat} (hf : LiveF ps f)
    (one : SimpleEdges ps) (few : c.faceEdges f ≠ [] → ∀ g ∈ ps.fh f, (pts (edgeOf g)).length ≤ 1) :
    ∃ l, facePolygons ps st base reg part f = some l ∧ FaceUses ps pts sort pieces c st.m0 f l := by
  unfold facePolygons
  by_cases hc : c.faceEdges f = []
  · have : ¬ Boundary.entry st f = true := fun h => (G.entry_iff hf).1 h hc
    obtain ⟨p, p1, p2⟩ := G.copied hf hc
    have hpo := G.copy_eq hf hc p2
    rw [if_neg this, p1]
    refine ⟨[p], rfl, ?_, ?_, ?_, ?_, ?_⟩
    · rw [List.flatten_singleton, hpo]; exact List.Nodup.of_map _ (G.edges_nodup hf)
    · rw [List.flatten_singleton, hpo]; exact fun x hx => (G.outline_new hf hx).1
    · rw [List.flatten_singleton, hpo]; exact fun x _ => Iff.rfl
    · rw [List.flatten_singleton, hpo]
      intro x hx hlt
      have := (G.outline_new hf hx).2; omega
    · intro x hx; rw [hc] at hx; cases hx
  · rw [if_pos ((G.entry_iff hf).2 hc)]
    obtain ⟨l, E, I, h1, h2, h3, A, Q, rest, rfl, k2, -, k4, k5⟩ := G.cut_few hp hf hc one (few hc)
    refine ⟨_, h1, ?_⟩
    have hIm : ∀ h, h ∈ I ↔ edgeOf h ∈ c.faceEdges f := fun h => by rw [h3.mem_iff, mem_both]
    have hEm : ∀ h, h ∈ E ↔ h ∈ outline ps st.m0 pts sort pieces f := fun h => h2.perm.mem_iff
    have hEI : (E ++ I).Nodup := by
      have L := G.laid hf h2 (List.Perm.refl _)
      exact (List.Perm.append_left E h3).nodup_iff.2 L.nd
    have hsub : (A ++ Q).flatten.Subperm (E ++ I) := by
      rw [List.flatten_append]
      exact ((List.subperm_append_left _).2 k4).trans k2.subperm
    have hmem : ∀ x ∈ (A ++ Q).flatten, x ∈ E ∨ x ∈ I := fun x hx => List.mem_append.1 (hsub.subset hx)
    have hcut : ∀ x ∈ I, edgeOf x < c.m0.nE := fun x hx => G.cutLt f _ ((hIm x).1 hx)
    refine ⟨?_, ?_, ?_, ?_, ?_⟩
    · obtain ⟨l', hp', hs'⟩ := hsub
      exact hp'.nodup_iff.1 (hs'.nodup hEI)
    · intro x hx
      rcases hmem x hx with h | h
      · exact (G.outline_new hf ((hEm x).1 h)).1
      · exact ((reachable_wf G.divided.valid).liveH_iff x).2 (G.cut_kept ((hIm x).1 h)).1
    · intro x hx
      rw [← hEm]
      constructor
      · intro h
        rcases hmem x h with h | h
        · exact h
        · have := hcut x h; omega
      · intro h
        rcases List.mem_append.1 (k2.symm.subset (List.mem_append_left _ h)) with h' | h'
        · rw [List.flatten_append]; exact List.mem_append_left _ h'
        · have := hcut x (k5 x h').1; omega
    · intro x hx hlt
      rcases hmem x hx with h | h
      · have := (G.outline_new hf ((hEm x).1 h)).2; omega
      · exact (hIm x).1 h
    · intro x hx ha
      rcases List.mem_append.1 (k2.symm.subset (List.mem_append_right _ ((hIm x).2 hx))) with h' | h'
      · rw [List.flatten_append]; exact List.mem_append_left _ h'
      · exact absurd (G.linked hf hEm hIm ha) (k5 x h').2

/-! ### All faces -/

/-- Two polygons of the same face have no common halfedge. -/
theorem pairs_disjoint {poly : Nat → List (List Nat)} : ∀ {faces : List Nat}, faces.Nodup → (∀ f ∈ faces, (poly f).flatten.Nodup) →
    (faces.flatMap (fun f => (poly f).map (fun p => (f, p)))).Pairwise (fun a b => a.1 = b.1 → List.Disjoint a.2 b.2) := by
  intro faces
  induction faces with
  | nil => intro _ _; simp
  | cons f faces ih =>
    intro hnd hp
    rw [List.nodup_cons] at hnd
    rw [List.flatMap_cons, List.pairwise_append]
    refine ⟨?_, ih hnd.2 (fun g hg => hp g (List.mem_cons_of_mem _ hg)), ?_⟩
    · rw [List.pairwise_map]
      have := (List.nodup_flatten.1 (hp f List.mem_cons_self)).2
      exact List.Pairwise.imp (S := fun a b => (f, a).1 = (f, b).1 → List.Disjoint (f, a).2 (f, b).2) (fun {a b} h _ => h) this
    · intro a ha b hb hab
      exfalso
      obtain ⟨p, -, rfl⟩ := List.mem_map.1 ha
      obtain ⟨g, hg, hb⟩ := List.mem_flatMap.1 hb
      obtain ⟨q, -, rfl⟩ := List.mem_map.1 hb
      simp only at hab
      exact hnd.1 (hab ▸ hg)

theorem pairs_unique {poly : Nat → List (List Nat)} {faces : List Nat} (hnd : faces.Nodup) (hp : ∀ f ∈ faces, (poly f).flatten.Nodup) {i j f x : Nat} {p q : List Nat}
    (hi : (faces.flatMap (fun f => (poly f).map (fun p => (f, p))))[i]? = some (f, p)) (hj : (faces.flatMap (fun f => (poly f).map (fun p => (f, p))))[j]? = some (f, q))
    (hx : x ∈ p) (hx' : x ∈ q) : i = j := by
  have hpw := pairs_disjoint hnd hp
  rw [List.pairwise_iff_getElem] at hpw
  obtain ⟨li, ei⟩ := List.getElem?_eq_some_iff.1 hi
  obtain ⟨lj, ej⟩ := List.getElem?_eq_some_iff.1 hj
  rcases Nat.lt_trichotomy i j with h | h | h
  · have := hpw i j li lj h
    rw [ei, ej] at this
    exact (this rfl hx hx').elim
  · exact h
  · have := hpw j i lj li h
    rw [ei, ej] at this
    exact (this rfl hx' hx).elim

theorem pairs_split {poly : Nat → List (List Nat)} (faces : List Nat) (i : Nat) :
    (faces.flatMap poly)[i]? = ((faces.flatMap (fun f => (poly f).map (fun p => (f, p))))[i]?).map (·.2) ∧
    (faces.flatMap (fun f => (poly f).map (fun _ => f)))[i]? = ((faces.flatMap (fun f => (poly f).map (fun p => (f, p))))[i]?).map (·.1) := by
  rw [← List.getElem?_map, ← List.getElem?_map, List.map_flatMap, List.map_flatMap]
  constructor
  · congr 1
    exact List.flatMap_congr (fun f _ => by simp)
  · congr 1
    exact List.flatMap_congr (fun f _ => by simp [Function.comp_def])

theorem length_le_two {l : List Nat} (hp : l.Pairwise (· < ·)) (q : Nat → Prop) (h : ∀ a ∈ l, ∀ b ∈ l, (q a ↔ q b) → a = b) : l.length ≤ 2 := by
  match l, hp, h with
  | [], _, _ => simp
  | [_], _, _ => simp
  | [_, _], _, _ => simp
  | a :: b :: e :: l, hp, h =>
    exfalso
    simp only [List.pairwise_cons] at hp
    have ab := hp.1 b (by simp)
    have ae := hp.1 e (by simp)
    have be := hp.2.1 e (by simp)
    have h1 := h a (by simp) b (by simp)
    have h2 := h a (by simp) e (by simp)
    have h3 := h b (by simp) e (by simp)
    by_cases qa : q a <;> by_cases qb : q b <;> by_cases qe : q e <;> simp only [qa, qb, qe, iff_true, iff_false, not_true, true_implies] at h1 h2 h3 <;> omega

/-- The use of the halfedges by all polygons. -/
theorem used_of (G : Given d ps base pts sort edges c st pieces reg) {smF : Nat} {faces : List Nat} (hnd : faces.Nodup) (hfaces : ∀ f, f ∈ faces ↔ LiveF ps f)
    {poly : Nat → List (List Nat)} {o : Out} (L : Listed smF c faces poly o) (U : ∀ f ∈ faces, FaceUses ps pts sort pieces c st.m0 f (poly f))
    (two : ∀ e f g, e ∈ c.faceEdges f → e ∈ c.faceEdges g → (f < smF ↔ g < smF) → f = g) :
    ∃ T, users st.m0.numHalfedges o.polygons = some T ∧ Used ps smF pts sort pieces c st.m0 o T := by
  have hin : ∀ i p, o.polygons[i]? = some p → ∃ f ∈ faces, o.faceOf i = some f ∧ p ∈ poly f ∧
      (faces.flatMap (fun f => (poly f).map (fun p => (f, p))))[i]? = some (f, p) := by
    intro i p hi
    obtain ⟨e1, e2⟩ := pairs_split (poly := poly) faces i
    rw [L.polygons, e1] at hi
    cases hz : (faces.flatMap (fun f => (poly f).map (fun p => (f, p))))[i]? with
    | none => rw [hz] at hi; cases hi
    | some y =>
      rw [hz] at hi e2
      have hy := List.mem_of_getElem? hz
      obtain ⟨f, hf, hy⟩ := List.mem_flatMap.1 hy
      obtain ⟨q, hq, rfl⟩ := List.mem_map.1 hy
      simp only [Option.map_some, Option.some.injEq] at hi
      subst hi
      exact ⟨f, hf, by rw [L.faceOf, e2]; rfl, hq, rfl⟩
  have hout : ∀ f ∈ faces, ∀ p ∈ poly f, ∃ i, o.polygons[i]? = some p ∧ o.faceOf i = some f := by
    intro f hf p hp
    have : (f, p) ∈ faces.flatMap (fun f => (poly f).map (fun p => (f, p))) := List.mem_flatMap.2 ⟨f, hf, List.mem_map.2 ⟨p, hp, rfl⟩⟩
    obtain ⟨i, hi⟩ := List.mem_iff_getElem?.1 this
    obtain ⟨e1, e2⟩ := pairs_split (poly := poly) faces i
    rw [hi] at e1 e2
    exact ⟨i, by rw [L.polygons, e1]; rfl, by rw [L.faceOf, e2]; rfl⟩
  have hmem : ∀ p ∈ o.polygons, ∃ f ∈ faces, p ∈ poly f := by
    intro p hp
    obtain ⟨i, hi⟩ := List.mem_iff_getElem?.1 hp
    obtain ⟨f, h1, -, h3, -⟩ := hin i p hi
    exact ⟨f, h1, h3⟩
  have hflat : ∀ {f p x}, p ∈ poly f → x ∈ p → x ∈ (poly f).flatten := fun h1 h2 => List.mem_flatten.2 ⟨_, h1, h2⟩
  have hn : ∀ p ∈ o.polygons, ∀ x ∈ p, x < st.m0.numHalfedges := by
    intro p hp x hx
    obtain ⟨f, hf, hpf⟩ := hmem p hp
    have hl := (U f hf).live x (hflat hpf hx)
    have W := reachable_wf G.divided.valid
    have hr : st.m0.hRem = [] := by
      rw [W.hRem_eq, G.divided.numbers.2.2]; rfl
    unfold Mesh.numHalfedges
    rw [hr]
    exact hl.1
  have hs : ∀ p ∈ o.polygons, p.Nodup := by
    intro p hp
    obtain ⟨f, hf, hpf⟩ := hmem p hp
    exact (List.nodup_flatten.1 (U f hf).nodup).1 p hpf
  obtain ⟨T, hT, tab⟩ := users_spec hn hs
  have huniq : ∀ x, ∀ i ∈ T x, ∀ j ∈ T x, ∀ f, o.faceOf i = some f → o.faceOf j = some f → i = j := by
    intro x i hi j hj f hfi hfj
    obtain ⟨p, p1, p2⟩ := ((tab x).2 i).1 hi
    obtain ⟨q, q1, q2⟩ := ((tab x).2 j).1 hj
    obtain ⟨f1, -, a2, -, a4⟩ := hin i p p1
    obtain ⟨f2, -, b2, -, b4⟩ := hin j q q1
    rw [hfi] at a2; rw [hfj] at b2
    obtain rfl := Option.some.inj a2
    obtain rfl := Option.some.inj b2
    exact pairs_unique hnd (fun g hg => (U g hg).nodup) a4 b4 p2 q2
  have hown : ∀ h x, PartOf ps st.m0 pts sort pieces h x → ∀ i ∈ T x, ∃ f, o.faceOf i = some f ∧ ps.face h = some f := by
    intro h x hx i hi
    obtain ⟨p, p1, p2⟩ := ((tab x).2 i).1 hi
    obtain ⟨f, hf, a2, a3, -⟩ := hin i p p1
    have hlf := (hfaces f).1 hf
    have hnew : c.m0.nE ≤ edgeOf x := (G.pieceLive (((reachable_wf G.ready.psOk).liveH_iff h).1 hx.1) _ hx.2.2.1).2
    obtain ⟨g, hg, hxg⟩ := List.mem_flatMap.1 (((U f hf).boundary x hnew).1 (hflat a3 p2))
    obtain ⟨lg, -, fg⟩ := G.live hlf hg
    have := G.part_one hx ((G.part_iff lg).2 hxg)
    exact ⟨f, a2, by rw [this]; exact fg⟩
  have hcut : ∀ x, edgeOf x < c.m0.nE → ∀ i ∈ T x, ∃ f, o.faceOf i = some f ∧ edgeOf x ∈ c.faceEdges f := by
    intro x hx i hi
    obtain ⟨p, p1, p2⟩ := ((tab x).2 i).1 hi
    obtain ⟨f, hf, a2, a3, -⟩ := hin i p p1
    exact ⟨f, a2, (U f hf).cut x (hflat a3 p2) hx⟩
  have honce : ∀ x, ∀ i ∈ T x, ∀ j ∈ T x, ∀ f g, o.faceOf i = some f → o.faceOf j = some g → (f < smF ↔ g < smF) → i = j := by
    intro x i hi j hj f g hfi hgj hfg
    by_cases hx : edgeOf x < c.m0.nE
    · obtain ⟨f', e1, m1⟩ := hcut x hx i hi
      obtain ⟨g', e2, m2⟩ := hcut x hx j hj
      rw [hfi] at e1; rw [hgj] at e2
      obtain rfl := Option.some.inj e1
      obtain rfl := Option.some.inj e2
      obtain rfl := two _ _ _ m1 m2 hfg
      exact huniq x i hi j hj f hfi hgj
    · obtain ⟨p, p1, p2⟩ := ((tab x).2 i).1 hi
      obtain ⟨f', hf', -, a3, -⟩ := hin i p p1
      obtain ⟨h, hh⟩ := G.part_every ((U f' hf').live x (hflat a3 p2)) (by omega)
      obtain ⟨y, y1, y2⟩ := hown h x hh i hi
      obtain ⟨z, z1, z2⟩ := hown h x hh j hj
      rw [y2] at z2
      obtain rfl := Option.some.inj z2
      exact huniq x i hi j hj y y1 z1
  refine ⟨T, hT, hs, tab, ?_, ?_, hcut, honce, ?_, ?_⟩
  · intro h x hx hno
    refine List.eq_nil_iff_forall_not_mem.2 (fun i hi => ?_)
    obtain ⟨f, -, hf⟩ := hown h x hx i hi
    rw [hno] at hf; cases hf
  · intro h x f hx hfh
    have hlf : LiveF ps f := by
      rcases (reachable_wf G.ready.psOk).h_face h f hx.1 hfh with ⟨h1, h2⟩ | ⟨-, h1, -⟩
      · simp at h2
      · exact h1
    have hhf : h ∈ ps.fh f := by
      rcases (reachable_wf G.ready.psOk).h_face h f hx.1 hfh with ⟨h1, h2⟩ | ⟨-, -, h1⟩
      · simp at h2
      · exact h1
    have hf := (hfaces f).2 hlf
    have hnew : c.m0.nE ≤ edgeOf x := (G.pieceLive (((reachable_wf G.ready.psOk).liveH_iff h).1 hx.1) _ hx.2.2.1).2
    have hxo : x ∈ outline ps st.m0 pts sort pieces f := List.mem_flatMap.2 ⟨h, hhf, (G.part_iff hx.1).1 hx⟩
    obtain ⟨p, hp, hxp⟩ := List.mem_flatten.1 (((U f hf).boundary x hnew).2 hxo)
    obtain ⟨i, i1, i2⟩ := hout f hf p hp
    have him : i ∈ T x := ((tab x).2 i).2 ⟨p, i1, hxp⟩
    refine ⟨i, ?_, i2⟩
    have hall : ∀ j ∈ T x, j = i := by
      intro j hj
      obtain ⟨g, g1, g2⟩ := hown h x hx j hj
      rw [hfh] at g2
      obtain rfl := Option.some.inj g2
      exact huniq x j hj i him f g1 i2
    have hpw := (tab x).1
    match hz : T x, him, hall, hpw with
    | [], him, _, _ => cases him
    | [a], him, _, _ => rw [List.mem_singleton.1 him]
    | a :: b :: l, _, hall, hpw =>
      exfalso
      have h1 := hall a (by simp)
      have h2 := hall b (by simp)
      rw [List.pairwise_cons] at hpw
      have := hpw.1 b (by simp)
      omega
  · intro x f hx hlf ha
    have hf := (hfaces f).2 hlf
    obtain ⟨p, hp, hxp⟩ := List.mem_flatten.1 ((U f hf).whole x hx ha)
    obtain ⟨i, i1, i2⟩ := hout f hf p hp
    exact ⟨i, ((tab x).2 i).2 ⟨p, i1, hxp⟩, i2⟩
  · intro x
    refine length_le_two (tab x).1 (fun i => ∃ f, o.faceOf i = some f ∧ f < smF) ?_
    intro a ha b hb hab
    obtain ⟨p, p1, -⟩ := ((tab x).2 a).1 ha
    obtain ⟨q, q1, -⟩ := ((tab x).2 b).1 hb
    obtain ⟨f, -, a2, -⟩ := hin a p p1
    obtain ⟨g, -, b2, -⟩ := hin b q q1
    refine honce x a ha b hb f g a2 b2 ?_
    constructor
    · intro h
      obtain ⟨f', h1, h2⟩ := hab.1 ⟨f, a2, h⟩
      rw [b2] at h1; rw [Option.some.inj h1]; exact h2
    · intro h
      obtain ⟨f', h1, h2⟩ := hab.2 ⟨g, b2, h⟩
      rw [a2] at h1; rw [Option.some.inj h1]; exact h2

end Mcut.Trace
