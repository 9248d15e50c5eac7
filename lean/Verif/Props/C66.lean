import Verif.Lemmas.C66

/-!
# C66: the cut graph
-/
namespace Mcut.CutEdges
open Mcut.Hmesh Mcut.Registry Mcut.Extract Mcut.Pairs
variable {P : Type} {d : P} {sm cs ps : Mesh P}

theorem known_of (M : MergeOf d sm cs ps) (hs : Preproc.ValidMesh sm.numVertices (polygons sm)) (hc : Preproc.ValidMesh cs.numVertices (polygons cs))
    {R : List (Nat × Nat × P)} {t : Tables P} (T : Recorded ps sm.numFaces ps.numVertices R t) (hx : CrossTested ps sm.numFaces t.reg) :
    Known d ps sm.numVertices sm.numFaces ps.numVertices t.reg t.cut := by
  have C := C29_consistent M.intact.reach
  refine ⟨M.intact.reach, fun x hx' => ?_, fun x hx' => ?_, T.cut⟩
  · obtain ⟨f, hf, ⟨h, hh, he⟩, -⟩ := hx x hx'
    have hl : LiveF ps f := ⟨by rw [← M.intact.numF]; exact hf, by rw [M.intact.noRemoved.2]; simp⟩
    rw [← he]
    exact (C.opp h ((C.face_list f hl).2.2 h hh).1).2.2.2.1
  · obtain ⟨f, hf, ho, -, hg⟩ := hx x hx'
    exact C63_valid M hs hc hf ho hg

theorem foldlM_two {ps : Mesh P} {smV smF base : Nat} {reg : List (Nat × Nat)} {cut : Nat × Nat → List Nat} (K : Known d ps smV smF base reg cut)
    (h2 : ∀ k, cut k ≠ [] → (cut k).length = 2) {m : Mesh P} (hm : m.nV = base + reg.length) (sort : List Nat → List Nat) (inside : Nat → Nat → Nat → Bool) :
    ∀ (keys ks : List (Nat × Nat)) (st : St P), Prog d m cut ks st → (∀ k ∈ keys, cut k ≠ []) →
      ∃ st', keys.foldlM (pairEdges ps base reg sort inside cut) st = some st' ∧ Prog d m cut (ks ++ keys) st' := by
  intro keys
  induction keys with
  | nil => intro ks st p _; exact ⟨st, rfl, by simpa using p⟩
  | cons k keys ih =>
    intro ks st p hne
    have hl := h2 k (hne k (by simp))
    obtain ⟨v, w, hk⟩ : ∃ v w, cut k = [v, w] := by
      match hcut : cut k, hl with
      | [v, w], _ => exact ⟨v, w, rfl⟩
    obtain ⟨st1, e1, p1⟩ := two_spec K h2 hm p hk
    obtain ⟨st2, e2, p2⟩ := ih _ _ p1 (fun k' hk' => hne k' (by simp [hk']))
    refine ⟨st2, ?_, by simpa using p2⟩
    rw [List.foldlM_cons]
    have : pairEdges ps base reg sort inside cut st k = some st1 := by unfold pairEdges; rw [hk]; exact e1
    rw [this]
    exact e2

/-- **C66 (edges).** The source mesh and the cut mesh are valid, `t` are the tables that the intersection tests leave (C63), and every pair of faces with common points has
exactly two of them (C65: triangles in general position). Then the stage succeeds in whatever order the pairs are dealt with, and leaves the cut graph: one edge between the
two points of each pair of faces and no other edge, with the right tables. -/
theorem C66_edges (M : MergeOf d sm cs ps) (hs : Preproc.ValidMesh sm.numVertices (polygons sm)) (hc : Preproc.ValidMesh cs.numVertices (polygons cs))
    (R : List (Nat × Nat × P)) (t : Tables P) (T : Recorded ps sm.numFaces ps.numVertices R t) (hx : CrossTested ps sm.numFaces t.reg)
    (h2 : ∀ k, t.cut k ≠ [] → (t.cut k).length = 2) (keys : List (Nat × Nat)) (hkeys : ∀ k, k ∈ keys ↔ t.cut k ≠ []) (sort : List Nat → List Nat)
    (inside : Nat → Nat → Nat → Bool) :
    ∃ st, cutEdges ps ps.numVertices t.reg sort inside t.cut keys (addPoints (copyVertices d ps).1 t.pts) = some st ∧
      CutGraph (addPoints (copyVertices d ps).1 t.pts) t.cut st := by
  have K := known_of M hs hc T hx
  have hlen : t.pts.length = t.reg.length := by rw [T.pts, T.reg]; simp
  obtain ⟨B, -, -⟩ := addPoints_bare t.pts _ _ (copyVertices_bare M.intact)
  generalize addPoints (copyVertices d ps).1 t.pts = m at *
  have W := reachable_wf B.reach
  have hno : ∀ h, ¬ LiveH m h := by
    intro h hl
    have := ((W.liveH_iff h).1 hl).1
    rw [B.nE] at this; omega
  have p0 : Prog d m t.cut [] ⟨m, [], fun _ => [], fun _ => []⟩ := by
    refine ⟨B.reach, B.vRem, rfl, rfl, B.nE, B.eRem, B.nF, B.fRem, rfl, by simp, by simp, by simp, by simp, by simp, ?_⟩
    funext v
    symm
    rw [List.eq_nil_iff_forall_not_mem]
    exact fun h hh => hno h ((W.vh_mem v h).1 hh).1
  obtain ⟨st, e, p⟩ := foldlM_two K h2 (by rw [B.nV, hlen]) sort inside keys [] _ p0 (fun k hk => (hkeys k).1 hk)
  rw [List.nil_append] at p
  refine ⟨st, e, ?_⟩
  have W' := reachable_wf p.reach
  have mem : ∀ e, e ∈ st.cutEdges ↔ e < st.cutEdges.length := by
    intro e
    conv_lhs => rw [p.numbers]
    rw [List.mem_range]
  refine ⟨⟨?_, p.pos, ?_, p.liveE, ?_⟩, p.numbers, ?_, ?_, ?_, ?_, p.facesNodup, ?_, ?_, ?_⟩
  · simp [Mesh.numVertices, p.vRem, B.vRem, p.nV]
  · simp [Mesh.numEdges, p.eRem, p.nE]
  · simp [p.nF]
  · intro e he; exact p.only e ((mem e).1 he)
  · intro k v w hk
    obtain ⟨e, he, hj⟩ := p.every k ((hkeys k).2 (by rw [hk]; simp)) v w hk
    exact ⟨e, (mem e).2 he, hj⟩
  · intro e he e' he' v w hj hj'; exact p.once e ((mem e).1 he) e' ((mem e').1 he') v w hj hj'
  · intro e he
    have hl : LiveH st.m0 (e * 2 + 0) := by rw [W'.liveH_iff, show (e * 2 + 0) / 2 = e by omega]; exact (p.liveE e).2 ((mem e).1 he)
    have := (W'.half _ hl).2.2.2
    rw [show opposite (e * 2 + 0) = e * 2 + 1 by unfold opposite; split <;> omega] at this
    exact fun h => this h.symm
  · intro f e; rw [p.faces, mem]
  · intro v; rw [p.incoming]; exact W'.vh_nd v
  · intro v h
    rw [p.incoming, W'.vh_mem, W'.liveH_iff, p.liveE, mem]
    rfl

/-- The pair of faces at which a point of face `g` of its edge and tested face `f` is listed. -/
def keyOf (smF f g : Nat) : Nat × Nat := if g < smF then (g, f) else (f, g)

/-- **C66 (degrees).** In the situation of `C66_edges`, when no edge is tested twice against the same face and two faces have at most one common edge: the point where edge
`e` pierces a face is the end of exactly one cut edge if `e` is a border edge of its mesh, and of exactly two otherwise. -/
theorem C66_degree (M : MergeOf d sm cs ps) (hs : Preproc.ValidMesh sm.numVertices (polygons sm)) (hc : Preproc.ValidMesh cs.numVertices (polygons cs))
    (R : List (Nat × Nat × P)) (t : Tables P) (T : Recorded ps sm.numFaces ps.numVertices R t) (hx : CrossTested ps sm.numFaces t.reg)
    (h2 : ∀ k, t.cut k ≠ [] → (t.cut k).length = 2) (hnd : t.reg.Nodup) (h1 : OneCommonEdge ps) (m : Mesh P) (st : St P) (G : CutGraph m t.cut st)
    (i e f : Nat) (hi : t.reg[i]? = some (e, f)) :
    (BorderEdge ps e → (st.incoming (ps.numVertices + i)).length = 1) ∧ (¬ BorderEdge ps e → (st.incoming (ps.numVertices + i)).length = 2) := by
  have K := known_of M hs hc T hx
  have S := K.sided _ (List.mem_of_getElem? hi)
  have hle := K.live _ (List.mem_of_getElem? hi)
  generalize hb : ps.numVertices = base at *
  have hiv : t.reg[base + i - base]? = some (e, f) := by rw [Nat.add_sub_cancel_left]; exact hi
  -- the pair for a face of the edge
  have hkey : ∀ g, OnEdge ps e g → base + i ∈ t.cut (keyOf sm.numFaces f g) ∧ (keyOf sm.numFaces f g).1 < sm.numFaces ∧ sm.numFaces ≤ (keyOf sm.numFaces f g).2 := by
    intro g hg
    have h3 := S.one g hg
    have h4 := S.face
    unfold keyOf
    split
    · have : sm.numFaces ≤ f := h4.2 (fun h => by have := h3.2 h; omega)
      exact ⟨K.of_entry (by omega) hiv (by assumption) this (.inl ⟨hg, rfl⟩), by assumption, this⟩
    · rename_i hlt
      have : f < sm.numFaces := by
        by_contra hh
        exact (h4.1 (by simp only; omega)) (h3.1 (by omega))
      exact ⟨K.of_entry (by omega) hiv this (by simp only; omega) (.inr ⟨hg, rfl⟩), this, by simp only; omega⟩
  have hback : ∀ k, base + i ∈ t.cut k → ∃ g, OnEdge ps e g ∧ k = keyOf sm.numFaces f g := by
    intro k hk
    obtain ⟨e', f', -, hr, k1, k2, h⟩ := K.entry hk
    rw [hiv] at hr
    simp only [Option.some.injEq, Prod.mk.injEq] at hr
    obtain ⟨rfl, rfl⟩ := hr
    rcases h with ⟨h, rfl⟩ | ⟨h, rfl⟩
    · exact ⟨k.1, h, by unfold keyOf; rw [if_pos k1]⟩
    · exact ⟨k.2, h, by unfold keyOf; rw [if_neg (by omega)]⟩
  -- the edge for a face
  have hedge : ∀ g, OnEdge ps e g → ∃ h w, edgeOf h ∈ st.cutEdges ∧ st.m0.target h = base + i ∧ w ≠ base + i ∧ w ∈ t.cut (keyOf sm.numFaces f g) ∧
      Joins st.m0 (edgeOf h) (base + i) w := by
    intro g hg
    obtain ⟨hv, -, -⟩ := hkey g hg
    have hl := h2 _ (fun h => by rw [h] at hv; simp at hv)
    obtain ⟨a, b, hab⟩ : ∃ a b, t.cut (keyOf sm.numFaces f g) = [a, b] := by
      match hcut : t.cut (keyOf sm.numFaces f g), hl with
      | [a, b], _ => exact ⟨a, b, rfl⟩
    have hlt := K.lt hab
    obtain ⟨e1, he1, hj⟩ := G.every _ a b hab
    have fin : ∀ w, w ≠ base + i → w ∈ t.cut (keyOf sm.numFaces f g) → Joins st.m0 e1 (base + i) w → ∃ h w, edgeOf h ∈ st.cutEdges ∧ st.m0.target h = base + i ∧
        w ≠ base + i ∧ w ∈ t.cut (keyOf sm.numFaces f g) ∧ Joins st.m0 (edgeOf h) (base + i) w := by
      intro w hw hwm hj
      rcases hj with ⟨j1, j2⟩ | ⟨j1, j2⟩
      · refine ⟨e1 * 2 + 0, w, ?_, j1, hw, hwm, ?_⟩
        · rw [show edgeOf (e1 * 2 + 0) = e1 by unfold edgeOf; omega]; exact he1
        · rw [show edgeOf (e1 * 2 + 0) = e1 by unfold edgeOf; omega]; exact .inl ⟨j1, j2⟩
      · refine ⟨e1 * 2 + 1, w, ?_, j2, hw, hwm, ?_⟩
        · rw [show edgeOf (e1 * 2 + 1) = e1 by unfold edgeOf; omega]; exact he1
        · rw [show edgeOf (e1 * 2 + 1) = e1 by unfold edgeOf; omega]; exact .inr ⟨j1, j2⟩
    rw [hab, List.mem_cons, List.mem_singleton] at hv
    rcases hv with hv | hv
    · exact fin b (by omega) (by rw [hab]; simp) (by rw [hv]; exact hj)
    · exact fin a (by omega) (by rw [hab]; simp) (by rw [hv]; exact joins_swap.1 hj)
  -- the other end determines the edge
  have huniq : ∀ g, OnEdge ps e g → ∀ h, edgeOf h ∈ st.cutEdges → st.m0.target h = base + i → (∃ v w, t.cut (keyOf sm.numFaces f g) = [v, w] ∧ Joins st.m0 (edgeOf h) v w) →
      ∀ h' w', edgeOf h' ∈ st.cutEdges → st.m0.target h' = base + i → w' ∈ t.cut (keyOf sm.numFaces f g) → w' ≠ base + i → Joins st.m0 (edgeOf h') (base + i) w' → h = h' := by
    rintro g hg h hm ht ⟨v, w, hvw, hj⟩ h' w' hm' ht' hw' hne hj'
    have hvm := (hkey g hg).1
    rw [hvw, List.mem_cons, List.mem_singleton] at hw' hvm
    have hj2 : Joins st.m0 (edgeOf h) (base + i) w' := by
      rcases hvm with hvm | hvm
      · rcases hw' with hw' | hw'
        · exact absurd (hw'.trans hvm.symm) hne
        · rw [hvm, hw']; exact hj
      · rcases hw' with hw' | hw'
        · rw [hvm, hw']; exact joins_swap.1 hj
        · exact absurd (hw'.trans hvm.symm) hne
    have he := G.once _ hm _ hm' _ _ hj2 hj'
    by_contra hhh
    have hloop := G.noLoop _ hm
    apply hloop
    have : ∀ h, h = edgeOf h * 2 + 0 ∨ h = edgeOf h * 2 + 1 := fun h => by unfold edgeOf; omega
    unfold Mesh.edgeVertex
    rcases this h with a | a <;> rcases this h' with b | b
    · exfalso; apply hhh; rw [a, b, he]
    · rw [he] at a ⊢; rw [← b, ← a, ht, ht']
    · rw [he] at a ⊢; rw [← b, ← a, ht, ht']
    · exfalso; apply hhh; rw [a, b, he]
  have hall : ∀ h ∈ st.incoming (base + i), ∃ g, OnEdge ps e g ∧ edgeOf h ∈ st.cutEdges ∧ st.m0.target h = base + i ∧
      ∃ v w, t.cut (keyOf sm.numFaces f g) = [v, w] ∧ Joins st.m0 (edgeOf h) v w := by
    intro h hh
    obtain ⟨hm, ht⟩ := (G.incoming _ h).1 hh
    obtain ⟨k, v, w, hk, hj⟩ := G.only _ hm
    have hin : base + i ∈ t.cut k := by
      rw [hk, List.mem_cons, List.mem_singleton]
      have : h = edgeOf h * 2 + 0 ∨ h = edgeOf h * 2 + 1 := by unfold edgeOf; omega
      rcases this with a | a <;> rw [a] at ht <;> rcases hj with ⟨j1, j2⟩ | ⟨j1, j2⟩
      · exact .inl (ht.symm.trans j1)
      · exact .inr (ht.symm.trans j1)
      · exact .inr (ht.symm.trans j2)
      · exact .inl (ht.symm.trans j2)
    obtain ⟨g, hg, rfl⟩ := hback k hin
    exact ⟨g, hg, hm, ht, v, w, hk, hj⟩
  obtain ⟨g0, hg0⟩ := S.used
  obtain ⟨x0, w0, a1, a2, a3, a4, a5⟩ := hedge g0 hg0
  constructor
  · intro hbord
    have only : ∀ g, OnEdge ps e g → g = g0 := by
      intro g hg
      unfold BorderEdge at hbord
      unfold OnEdge at hg hg0
      rcases hbord with h | h <;> rw [h] at hg hg0 <;> simp only [reduceCtorEq, false_or, or_false] at hg hg0 <;> rw [hg0] at hg <;> exact (Option.some.inj hg).symm
    have : (st.incoming (base + i)).Perm [x0] := by
      rw [List.perm_ext_iff_of_nodup (G.inNodup _) (by simp)]
      intro h
      rw [List.mem_singleton]
      constructor
      · intro hh
        obtain ⟨g, hg, b1, b2, b3⟩ := hall h hh
        obtain rfl := only g hg
        exact huniq g hg h b1 b2 b3 x0 w0 a1 a2 a4 a3 a5
      · rintro rfl; exact (G.incoming _ _).2 ⟨a1, a2⟩
    simpa using this.length_eq
  · intro hbord
    obtain ⟨g1, hg1, hg01, honly⟩ : ∃ g1, OnEdge ps e g1 ∧ g0 ≠ g1 ∧ ∀ g, OnEdge ps e g → g = g0 ∨ g = g1 := by
      unfold BorderEdge at hbord
      rw [not_or] at hbord
      obtain ⟨p0, q0⟩ := Option.ne_none_iff_exists'.1 hbord.1
      obtain ⟨p1, q1⟩ := Option.ne_none_iff_exists'.1 hbord.2
      have hne : p0 ≠ p1 := by rintro rfl; exact S.two p0 ⟨q0, q1⟩
      have ho : ∀ g, OnEdge ps e g ↔ g = p0 ∨ g = p1 := by
        intro g; unfold OnEdge; rw [q0, q1]; simp [eq_comm]
      rcases (ho g0).1 hg0 with rfl | rfl
      · exact ⟨p1, (ho p1).2 (.inr rfl), hne, fun g hg => (ho g).1 hg⟩
      · exact ⟨p0, (ho p0).2 (.inl rfl), hne.symm, fun g hg => ((ho g).1 hg).symm⟩
    obtain ⟨x1, w1, c1, c2, c3, c4, c5⟩ := hedge g1 hg1
    have hne01 : x0 ≠ x1 := by
      rintro rfl
      -- the other end would be on both faces
      have hw : w0 = w1 := by
        rcases a5 with ⟨p1, p2⟩ | ⟨p1, p2⟩ <;> rcases c5 with ⟨q1, q2⟩ | ⟨q1, q2⟩
        · exact p2.symm.trans q2
        · exact absurd (q1.symm.trans p1) c3
        · exact absurd (p1.symm.trans q1) a3
        · exact p1.symm.trans q1
      subst hw
      obtain ⟨e', f', hb', hr', -, -, hh⟩ := K.entry a4
      obtain ⟨e'', f'', -, hr'', -, -, hh'⟩ := K.entry c4
      rw [hr'] at hr''
      simp only [Option.some.injEq, Prod.mk.injEq] at hr''
      obtain ⟨rfl, rfl⟩ := hr''
      have k0 := hkey g0 hg0
      have k1 := hkey g1 hg1
      have hside : g0 < sm.numFaces ↔ g1 < sm.numFaces := by
        have q0 := S.one g0 hg0
        have q1 := S.one g1 hg1
        constructor <;> intro hh <;> by_contra hh'
        · have := q0.2 (q1.1 (by omega)); omega
        · have := q1.2 (q0.1 (by omega)); omega
      have both : OnEdge ps e' g0 ∧ OnEdge ps e' g1 ∧ f' = f := by
        unfold keyOf at hh hh' k0 k1
        by_cases hl : g0 < sm.numFaces
        · rw [if_pos hl] at hh k0
          rw [if_pos (hside.1 hl)] at hh' k1
          simp only at hh hh' k0 k1
          rcases hh with ⟨z1, z2⟩ | ⟨z1, z2⟩ <;> rcases hh' with ⟨y1, y2⟩ | ⟨y1, y2⟩
          · exact ⟨z1, y1, z2⟩
          · omega
          · omega
          · omega
        · rw [if_neg hl] at hh k0
          rw [if_neg (fun h => hl (hside.2 h))] at hh' k1
          simp only at hh hh' k0 k1
          rcases hh with ⟨z1, z2⟩ | ⟨z1, z2⟩ <;> rcases hh' with ⟨y1, y2⟩ | ⟨y1, y2⟩
          · omega
          · omega
          · omega
          · exact ⟨z1, y1, z2⟩
      have hee := h1 e e' g0 g1 hle (K.live _ (List.mem_of_getElem? hr')) hg01 hg0 hg1 both.1 both.2.1
      obtain ⟨-, -, rfl⟩ := both
      subst hee
      have l1 := (List.getElem?_eq_some_iff.1 hr').1
      have l2 := (List.getElem?_eq_some_iff.1 hi).1
      have := (List.getElem?_inj l1 hnd).1 (hr'.trans hi.symm)
      omega
    have : (st.incoming (base + i)).Perm [x0, x1] := by
      rw [List.perm_ext_iff_of_nodup (G.inNodup _) (by simp [hne01])]
      intro h
      rw [List.mem_cons, List.mem_singleton]
      constructor
      · intro hh
        obtain ⟨g, hg, b1, b2, b3⟩ := hall h hh
        rcases honly g hg with rfl | rfl
        · exact .inl (huniq g hg h b1 b2 b3 x0 w0 a1 a2 a4 a3 a5)
        · exact .inr (huniq g hg h b1 b2 b3 x1 w1 c1 c2 c4 c3 c5)
      · rintro (rfl | rfl)
        · exact (G.incoming _ _).2 ⟨a1, a2⟩
        · exact (G.incoming _ _).2 ⟨c1, c2⟩
    simpa using this.length_eq

/-- **C66 (closed meshes).** If neither mesh has a border, every point is the end of exactly two cut edges: the cut graph consists of closed loops. -/
theorem C66_closed (M : MergeOf d sm cs ps) (hs : Preproc.ValidMesh sm.numVertices (polygons sm)) (hc : Preproc.ValidMesh cs.numVertices (polygons cs))
    (R : List (Nat × Nat × P)) (t : Tables P) (T : Recorded ps sm.numFaces ps.numVertices R t) (hx : CrossTested ps sm.numFaces t.reg)
    (h2 : ∀ k, t.cut k ≠ [] → (t.cut k).length = 2) (hnd : t.reg.Nodup) (h1 : OneCommonEdge ps) (m : Mesh P) (st : St P) (G : CutGraph m t.cut st)
    (hcl : ∀ e, LiveE ps e → ¬ BorderEdge ps e) (v : Nat) (h : st.incoming v ≠ []) : (st.incoming v).length = 2 := by
  have K := known_of M hs hc T hx
  obtain ⟨x, hx'⟩ := List.exists_mem_of_ne_nil _ h
  obtain ⟨hm, ht⟩ := (G.incoming v x).1 hx'
  obtain ⟨k, a, b, hk, hj⟩ := G.only _ hm
  have hin : v ∈ t.cut k := by
    rw [hk, List.mem_cons, List.mem_singleton]
    have : x = edgeOf x * 2 + 0 ∨ x = edgeOf x * 2 + 1 := by unfold edgeOf; omega
    rcases this with a | a <;> rw [a] at ht <;> rcases hj with ⟨j1, j2⟩ | ⟨j1, j2⟩
    · exact .inl (ht.symm.trans j1)
    · exact .inr (ht.symm.trans j1)
    · exact .inr (ht.symm.trans j2)
    · exact .inl (ht.symm.trans j2)
  obtain ⟨e, f, hb, hr, -⟩ := K.entry hin
  have := (C66_degree M hs hc R t T hx h2 hnd h1 m st G _ e f hr).2 (hcl e (K.live _ (List.mem_of_getElem? hr)))
  rwa [show ps.numVertices + (v - ps.numVertices) = v by omega] at this

/-- One triangle. -/
def demoTri : Mesh Unit := (runAll (Mesh.empty ()) [.addVertex (), .addVertex (), .addVertex (), .addFace [0, 1, 2]]).getD (Mesh.empty ())

/-- Two triangles merged. -/
def demoPs : Mesh Unit := ((soup 0 demoTri demoTri none).map (fun S => S.ps)).getD demoTri

/-- The candidate pairs: each edge of one triangle and the other triangle. -/
def demoCand : List (Nat × List Nat) := [(0, [1]), (1, [1]), (2, [1]), (3, [0]), (4, [0]), (5, [0])]

def demoTables : Tables Unit := (sequential demoPs 3 1 6 demoTest demoCand).getD .empty

/-- The hypotheses of `C66_edges` and `C66_degree` are met: two triangles that pass through each other, edge 0 pierces the second, edge 3 the first; both are border edges. -/
theorem C66_demo : ∃ (sm cs ps : Mesh Unit) (R : List (Nat × Nat × Unit)) (t : Tables Unit), MergeOf () sm cs ps ∧ Preproc.ValidMesh sm.numVertices (polygons sm) ∧
    Preproc.ValidMesh cs.numVertices (polygons cs) ∧ Recorded ps sm.numFaces ps.numVertices R t ∧ CrossTested ps sm.numFaces t.reg ∧
    (∀ k, t.cut k ≠ [] → (t.cut k).length = 2) ∧ t.reg.Nodup ∧ OneCommonEdge ps ∧ t.cut (0, 1) = [6, 7] ∧ t.reg = [(0, 1), (3, 0)] := by
  have I : Intact () demoTri := runAll_intact () _ (by decide +kernel) (by decide +kernel)
  have hv : Preproc.ValidMesh demoTri.numVertices (polygons demoTri) := by
    rw [show demoTri.numVertices = 3 by decide +kernel, show polygons demoTri = [[1, 2, 0]] by decide +kernel]
    refine ⟨?_, by decide⟩
    intro f hf
    obtain rfl : f = [1, 2, 0] := by simpa using hf
    exact ⟨by decide, by decide, by decide⟩
  obtain ⟨S, hS, M, -⟩ := C60_soup 0 I I hv none (by intro t h; cases h)
  have hps : demoPs = S.ps := by unfold demoPs; rw [hS]; rfl
  rw [← hps] at M
  have nV : demoTri.numVertices = 3 := by decide +kernel
  have nF : demoTri.numFaces = 1 := by decide +kernel
  have nV' : demoPs.numVertices = 6 := by decide +kernel
  have nF' : demoPs.numFaces = 2 := by decide +kernel
  have fh0 : demoPs.fh 0 = [0, 2, 4] := by decide +kernel
  have fh1 : demoPs.fh 1 = [6, 8, 10] := by decide +kernel
  have on : ∀ e, e < 6 → OnFace demoPs e (e / 3) := by
    intro e he
    unfold OnFace
    have : e = 0 ∨ e = 1 ∨ e = 2 ∨ e = 3 ∨ e = 4 ∨ e = 5 := by omega
    rcases this with rfl | rfl | rfl | rfl | rfl | rfl
    · exact ⟨0, by rw [show 0 / 3 = 0 from rfl, fh0]; simp, rfl⟩
    · exact ⟨2, by rw [show 1 / 3 = 0 from rfl, fh0]; simp, rfl⟩
    · exact ⟨4, by rw [show 2 / 3 = 0 from rfl, fh0]; simp, rfl⟩
    · exact ⟨6, by rw [show 3 / 3 = 1 from rfl, fh1]; simp, rfl⟩
    · exact ⟨8, by rw [show 4 / 3 = 1 from rfl, fh1]; simp, rfl⟩
    · exact ⟨10, by rw [show 5 / 3 = 1 from rfl, fh1]; simp, rfl⟩
  have other : ∀ e f, e < 6 → f = 1 - e / 3 → OtherSide 1 (e / 3) f := by
    intro e f he hf
    unfold OtherSide; omega
  have sided : ∀ x ∈ demoCand, ∀ f ∈ x.2, Sided demoPs 3 1 x.1 f := by
    have hc : ∀ x ∈ demoCand, x.1 < 6 ∧ ∀ f ∈ x.2, f = 1 - x.1 / 3 := by decide +kernel
    intro x hx f hf
    obtain ⟨h1, h2⟩ := hc x hx
    have := C63_valid M hv hv (e := x.1) (f := x.1 / 3) (g := f) (by rw [nF']; omega) (on _ h1) (by rw [nF]; exact other _ _ h1 (h2 f hf))
    rwa [nV, nF] at this
  have hrun := C63_sequential demoPs 3 1 6 demoTest demoCand sided
  have hsome : sequential demoPs 3 1 6 demoTest demoCand = some demoTables := by
    unfold demoTables
    cases h : sequential demoPs 3 1 6 demoTest demoCand with
    | none =>
      have : (sequential demoPs 3 1 6 demoTest demoCand).isSome = true := by decide +kernel
      rw [h] at this; cases this
    | some t => rfl
  have hreg : demoTables.reg = [(0, 1), (3, 0)] := by decide +kernel
  have hrec := hrun.2 _ hsome
  refine ⟨demoTri, demoTri, demoPs, _, demoTables, M, hv, hv, by rw [nF, nV']; exact hrec, ?_, ?_, by rw [hreg]; decide, ?_, by decide +kernel, hreg⟩
  · rw [hreg, nF]
    intro x hx
    simp only [List.mem_cons, List.not_mem_nil, or_false] at hx
    rcases hx with rfl | rfl
    · exact ⟨0, by rw [nF']; omega, on 0 (by omega), by rw [nF']; simp, other 0 1 (by omega) rfl⟩
    · exact ⟨1, by rw [nF']; omega, on 3 (by omega), by rw [nF']; simp, other 3 0 (by omega) rfl⟩
  · rintro ⟨s, c⟩ hk
    have hL := hrec.cut s c
    have : demoTables.cut (s, c) = demoTables.cut (0, 1) := by
      obtain ⟨v, hv'⟩ := List.exists_mem_of_ne_nil _ hk
      obtain ⟨i, e, f, -, hi, h1, h2, h3⟩ := (hL.2 v).1 hv'
      have hc : c = 1 := by
        rw [hreg] at hi
        have hf0 : ∀ g, OnEdge demoPs 3 g → g = 1 := by
          intro g hg
          have a : demoPs.face (halfedgeOf 3 0) = some 1 := by decide +kernel
          have b : demoPs.face (halfedgeOf 3 1) = none := by decide +kernel
          unfold OnEdge at hg; rw [a, b] at hg; simpa [eq_comm] using hg
        have hf1 : ∀ g, OnEdge demoPs 0 g → g = 0 := by
          intro g hg
          have a : demoPs.face (halfedgeOf 0 0) = some 0 := by decide +kernel
          have b : demoPs.face (halfedgeOf 0 1) = none := by decide +kernel
          unfold OnEdge at hg; rw [a, b] at hg; simpa [eq_comm] using hg
        have hm := List.mem_of_getElem? hi
        simp only [List.mem_cons, List.not_mem_nil, or_false, Prod.mk.injEq] at hm
        rcases hm with ⟨rfl, rfl⟩ | ⟨rfl, rfl⟩ <;> rcases h3 with ⟨h3, h4⟩ | ⟨h3, h4⟩
        · omega
        · have := hf1 _ h3; omega
        · have := hf0 _ h3; omega
        · exact hf0 _ h3
      rw [hc, show s = 0 by omega]
    rw [this]
    decide +kernel
  · intro e e' g g' he he' hne h1 h2
    exfalso
    have hlt : e < 6 := by
      have := he.1
      have hE : demoPs.nE = 6 := by decide +kernel
      omega
    have hn : ∀ e, e < 6 → demoPs.face (halfedgeOf e 1) = none := by
      have : ∀ e ∈ List.range 6, demoPs.face (halfedgeOf e 1) = none := by decide +kernel
      exact fun e he => this e (List.mem_range.2 he)
    unfold OnEdge at h1 h2
    rw [hn e hlt] at h1 h2
    simp only [reduceCtorEq, or_false] at h1 h2
    rw [h1] at h2
    exact hne (Option.some.inj h2)

-- the stage computed: one edge between points 6 and 7, listed for both faces
example : ((cutEdges demoPs 6 demoTables.reg id (fun _ _ _ => true) demoTables.cut [(0, 1)] (addPoints (copyVertices () demoPs).1 demoTables.pts)).map
    (fun st => (st.cutEdges, st.faceEdges 0, st.faceEdges 1, st.incoming 6, st.incoming 7))) = some ([0], [0], [0], [1], [0]) := by decide +kernel

end Mcut.CutEdges
