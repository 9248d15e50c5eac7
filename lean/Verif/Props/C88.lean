import Verif.Lemmas.C88Track
import Verif.Lemmas.C88Comp
import Verif.Props.C87

/-! # C88: the triangles of a face are put into the output, each once and in the direction of the face -/
namespace Mcut.Cdt
open Mcut.Geom Mcut.Hmesh Mcut.Preproc
variable {K : Type} [Field K] [LinearOrder K] [IsStrictOrderedRing K] {P : Type}

theorem done_fixed {s : St} {fixed : List (Nat × Nat)} {d : Done} (h : eraseOuter s fixed = some d) : ∀ e ∈ d.fixed, ∃ a b, e = edge a b := by
  unfold eraseOuter at h
  obtain ⟨l, -, h⟩ := Option.bind_eq_some_iff.1 h
  obtain ⟨seed, -, h⟩ := Option.bind_eq_some_iff.1 h
  obtain ⟨r, -, h⟩ := Option.bind_eq_some_iff.1 h
  unfold finalise at h
  simp only at h
  split at h
  · cases Option.some.inj h
    intro e he
    obtain ⟨x, -, rfl⟩ := List.mem_map.1 he
    exact ⟨_, _, rfl⟩
  · cases h

theorem same_tris {g : Nat → Nat} {ts : List Tri} (keep : Bool) : ∀ (order : List Nat), (∀ k ∈ order, k < ts.length) →
    List.Forall₂ (fun k f => ∃ t, ts[k]? = some t ∧ f = if keep then [g (t.v 0), g (t.v 1), g (t.v 2)] else [g (t.v 2), g (t.v 1), g (t.v 0)]) order ((order.filterMap (ts[·]?)).map (orient g keep)) := by
  intro order
  induction order with
  | nil => intro _; exact .nil
  | cons k l ih =>
    intro h
    have e := List.getElem?_eq_getElem (h k (by simp))
    rw [List.filterMap_cons, e]
    exact .cons ⟨_, e, rfl⟩ (ih fun k' hk' => h k' (by simp [hk']))

theorem back_forth {f : List Nat} {n : Nat} (hf : GoodFace n f) {p : Nat × Nat} (h : p ∈ cycPairs f) (h' : (p.2, p.1) ∈ cycPairs f) : False := by
  obtain ⟨i, hi, a1, a2⟩ := cycPairs_mem _ _ h
  obtain ⟨j, hj, b1, b2⟩ := cycPairs_mem _ _ h'
  have nd := hf.2.1
  have lt : ∀ k, k % f.length < f.length := fun k => Nat.mod_lt _ (by omega)
  have e1 : (i + 1) % f.length = j := (List.getElem?_inj (lt _) nd).1 (a2.trans b1.symm)
  have e2 : (j + 1) % f.length = i := (List.getElem?_inj (lt _) nd).1 (b2.trans a1.symm)
  rw [← e1] at e2
  exact two_steps hf.1 hi e2.symm

/-- Across an edge: the opposite of a halfedge of the one face is a halfedge of the other face. -/
theorem across_iff {d0 : P} {pts : List P} {fs : List (List Nat)} {cc : Mesh P} (B : Built d0 pts fs cc) {i j : Nat} {f g : List Nat} (hi : fs[i]? = some f) (hj : fs[j]? = some g) :
    Across f g ↔ ∃ h ∈ cc.fh i, cc.face (opposite h) = some j := by
  have W := reachable_wf B.reach
  have mem : ∀ {i : Nat} {f : List Nat}, fs[i]? = some f → ∀ h ∈ cc.fh i, LiveH cc h ∧ cc.face h = some i := fun e h hh => by
    have := (W.faceOK ((B.liveF _).2 (List.getElem?_eq_some_iff.1 e).1)).mem h hh
    exact ⟨this.1, this.2⟩
  unfold Across
  constructor
  · rintro ⟨p, hp, hq⟩
    rw [dirEdges_eq, ← B.face_pairs i f hi] at hp
    rw [dirEdges_eq, ← B.face_pairs j g hj] at hq
    obtain ⟨x, hx, rfl⟩ := List.mem_map.1 hp
    obtain ⟨y, hy, e⟩ := List.mem_map.1 hq
    obtain ⟨e1, e2⟩ := Prod.mk.inj e
    refine ⟨x, hx, ?_⟩
    have : y = opposite x := B.uniq _ _ (mem hj y hy).1 (W.opp_live (mem hi x hx).1) (by rw [opposite_opposite]; exact e1) e2
    rw [← this]
    exact (mem hj y hy).2
  · rintro ⟨x, hx, e⟩
    obtain ⟨-, hy⟩ := face_lt B (W.opp_live (mem hi x hx).1) e
    refine ⟨((cc.hd (opposite x)).t, (cc.hd x).t), ?_, ?_⟩
    · rw [dirEdges_eq, ← B.face_pairs i f hi]
      exact List.mem_map.2 ⟨x, hx, rfl⟩
    · rw [dirEdges_eq, ← B.face_pairs j g hj]
      exact List.mem_map.2 ⟨_, hy, by rw [opposite_opposite]⟩

/-- The triangles of face `i` are all put into the output, each once, and the output fills the face in the direction of the face: if no face is across an edge of the face, perhaps in the opposite direction. The edge where the walk starts in that case is any fixed edge; the corners of the face can have been
reversed for the triangulator. -/
theorem C88_emit_partial {d0 : P} {pts : List P} {fs : List (List Nat)} {cc : Mesh P} (C : Component d0 pts fs cc) {i : Nat} {f : List Nat} (hi : fs[i]? = some f) (N : NoChord fs i)
    {pos : Nat → V2 K} (h : Placed pos (f.length + 3)) {s : St} (T : Triangulation pos (f.length + 3) s) {fixed : List (Nat × Nat)} (hf : FixedEdges (f.length + 3) fixed) (O : Outline s.tris f.length fixed) {d : Done} (e : eraseOuter s fixed = some d)
    (flipped : Bool) {pick : Nat × Nat} (hp : pick ∈ d.fixed) :
    ∃ out, emit d0 cc i flipped pick d = some out ∧ SameTris (faceVertex f.length flipped) d.tris out ∧ (Fills f.length out ∨ (∀ g ∈ fs, ¬Across f g) ∧ Fills f.length (out.map List.reverse)) := by
  classical
  have B := C.built
  have gf := C.1 f (List.mem_of_getElem? hi)
  have three := gf.1
  have il := (List.getElem?_eq_some_iff.1 hi).1
  obtain ⟨old, d', e', E, -⟩ := C86_erase h T hf
  obtain rfl : d = d' := Option.some.inj (e.symm.trans e')
  have count := (tiles_of h T three O hf E).count
  obtain ⟨D0, trees⟩ := disk_of h T three O hf E
  obtain ⟨n, hn⟩ : ∃ n, n = f.length := ⟨_, rfl⟩
  have evf := vaf B hi
  have fl : (cc.verticesAroundFace i).length = n := by rw [evf, List.length_rotate, hn]
  have fnd : (cc.verticesAroundFace i).Nodup := by rw [evf, List.nodup_rotate]; exact gf.2.1
  rw [← hn] at three count D0 trees O hf ⊢
  have D := D0.flip three flipped
  obtain ⟨keep, dir⟩ := D.direct
  obtain ⟨keep0, dir0⟩ := D0.direct
  obtain ⟨ps, w, ew, Tw, wall, wseen, wno, wseed⟩ := make_spec B C.1 il
  obtain ⟨fv, hfv⟩ : ∃ fv, fv = cc.verticesAroundFace i := ⟨_, rfl⟩
  obtain ⟨W, hW⟩ : ∃ W : Nat → Nat, W = fun v => w.order.idxOf (fv.getD v 0) := ⟨_, rfl⟩
  have W_at : ∀ {a x : Nat}, fv[a]? = some x → W a = w.order.idxOf x := by
    intro a x e
    rw [hW]; simp only
    rw [List.getD_eq_getElem?_getD, e]; rfl
  have get : ∀ a < n, ∃ x, fv[a]? = some x ∧ x ∈ w.order ∧ x ∈ fv := by
    intro a ha
    obtain ⟨x, e⟩ : ∃ x, fv[a]? = some x := ⟨_, List.getElem?_eq_getElem (show a < fv.length by rw [hfv, fl]; exact ha)⟩
    have hx := List.mem_of_getElem? e
    refine ⟨x, e, wall x ?_, hx⟩
    rw [← hfv]; exact hx
  have uniq_at : ∀ {a b x : Nat}, fv[a]? = some x → fv[b]? = some x → a = b := fun e e' =>
    (List.getElem?_inj (List.getElem?_eq_some_iff.1 e).1 (by rw [hfv]; exact fnd)).1 (e.trans e'.symm)
  have inj : ∀ a b, a < n → b < n → W a = W b → a = b := by
    intro a b ha hb hab
    obtain ⟨x, ex, mx, -⟩ := get a ha
    obtain ⟨y, ey, -, -⟩ := get b hb
    rw [W_at ex, W_at ey] at hab
    have := idx_inj mx hab
    subst this
    exact uniq_at ex ey
  have lt : ∀ a < n, W a < ps.length := by
    intro a ha
    obtain ⟨x, ex, mx, -⟩ := get a ha
    rw [W_at ex, Tw.len]
    exact List.idxOf_lt_length_iff.2 mx
  -- consecutive corners
  have next_pair : ∀ a < n, ∀ x y, fv[a]? = some x → fv[(a + 1) % n]? = some y → (x, y) ∈ cycPairs fv := by
    intro a ha x y ex ey
    rw [← dirEdges_eq]
    unfold dirEdges
    refine List.mem_map.2 ⟨a, List.mem_range.2 (by rw [hfv, fl]; exact ha), ?_⟩
    rw [List.getD_eq_getElem?_getD, List.getD_eq_getElem?_getD, ex, hfv, fl, ← hfv, ey]; rfl
  have pair_next : ∀ p ∈ cycPairs fv, ∃ a < n, fv[a]? = some p.1 ∧ fv[(a + 1) % n]? = some p.2 := by
    intro p hp
    obtain ⟨a, ha, h1, h2⟩ := cycPairs_mem _ _ hp
    rw [hfv, fl] at ha h2
    exact ⟨a, ha, h1, by rw [hfv]; exact h2⟩
  -- what the tracker has
  obtain ⟨nbrs, hnb⟩ : ∃ nbrs, nbrs = w.seen.map (fun j => (cc.verticesAroundFace j).map (w.order.idxOf ·)) := ⟨_, rfl⟩
  have Bw := Tw.built
  rw [← hnb] at Bw
  have inNbr : ∀ {a b : Nat}, a < n → b < n → (W a, W b) ∈ nbrs.flatMap cycPairs → ∃ (j : Nat) (x y : Nat), j ∈ w.seen ∧ fv[a]? = some x ∧ fv[b]? = some y ∧ (x, y) ∈ cycPairs (cc.verticesAroundFace j) := by
    intro a b ha hb hab
    obtain ⟨x, ex, mx, -⟩ := get a ha
    obtain ⟨y, ey, my, -⟩ := get b hb
    rw [W_at ex, W_at ey, hnb] at hab
    obtain ⟨l, hl, hq⟩ := List.mem_flatMap.1 hab
    obtain ⟨j, hj, rfl⟩ := List.mem_map.1 hl
    rw [cyc_map] at hq
    obtain ⟨q, h1, h2⟩ := List.mem_map.1 hq
    obtain ⟨e1, e2⟩ := Prod.mk.inj h2
    have m2 : q.1 ∈ cc.verticesAroundFace j ∧ q.2 ∈ cc.verticesAroundFace j := by
      obtain ⟨i, -, a, b⟩ := cycPairs_mem _ _ h1
      exact ⟨List.mem_of_getElem? a, List.mem_of_getElem? b⟩
    have i1 := idx_inj (Tw.all j hj _ m2.1) e1
    have i2 := idx_inj (Tw.all j hj _ m2.2) e2
    exact ⟨j, x, y, hj, ex, ey, by rw [← i1, ← i2]; exact h1⟩
  have seen_face : ∀ j ∈ w.seen, ∃ g, fs[j]? = some g ∧ Across f g := by
    intro j hj
    obtain ⟨x, hx, ej⟩ := (wseen j).1 hj
    have W' := reachable_wf B.reach
    have := face_lt B (W'.opp_live ((W'.faceOK ((B.liveF i).2 il)).mem x hx).1) ej
    have eg := List.getElem?_eq_getElem this.1
    exact ⟨_, eg, (across_iff B hi eg).2 ⟨x, hx, ej⟩⟩
  have fvf : ∀ p, p ∈ cycPairs fv ↔ p ∈ cycPairs f := fun p => by rw [hfv]; exact vaf_pairs B hi p
  have chord : ∀ {a b : Nat}, a < n → b < n → (W a, W b) ∈ nbrs.flatMap cycPairs → a = (b + 1) % n := by
    intro a b ha hb hab
    obtain ⟨j, x, y, hj, ex, ey, hq⟩ := inNbr ha hb hab
    obtain ⟨g, eg, hac⟩ := seen_face j hj
    have inf : ∀ {c z : Nat}, fv[c]? = some z → z ∈ f := by
      intro c z ez
      have := List.mem_of_getElem? ez
      rw [hfv, evf, List.mem_rotate] at this
      exact this
    have := N f (by rw [hi]; rfl) g (List.mem_of_getElem? eg) hac (x, y) (by rw [dirEdges_eq]; exact (vaf_pairs B eg _).1 hq) (inf ex) (inf ey)
    rw [dirEdges_eq, ← fvf] at this
    obtain ⟨c, -, h1, h2⟩ := pair_next _ this
    obtain rfl := uniq_at h1 ey
    exact uniq_at ex h2
  -- all of it
  have key : ∀ (e : Nat × Nat) (a : Nat), a < n → (e = (a, (a + 1) % n) ∨ e = ((a + 1) % n, a)) → ∀ ke : Bool,
      (∀ t ∈ d.tris, ∀ q ∈ cycPairs (orient (faceVertex n flipped) ke t), (W q.1, W q.2) ∉ nbrs.flatMap cycPairs) →
      (ke = true ∨ ke = keep ∧ (W ((a + 1) % n), W a) ∈ nbrs.flatMap cycPairs) →
      ∃ k order, seedTri (faceVertex n flipped) d.tris e = some k ∧ walk d.fixed d.tris d.tris.length [k] [] = some order ∧ order.Perm (List.range d.tris.length) ∧
        (insertTris W (faceVertex n flipped) d.tris order w.mesh).2 = (order.filterMap (d.tris[·]?)).map (orient (faceVertex n flipped) ke) := by
    intro e a ha he ke free first
    obtain ⟨k, t, i1, ek, et, hfx, hsd⟩ := seedTri_spec D three dir ha he
    have ht := List.mem_of_getElem? et
    have d1 := dir0 t ht i1 hfx
    have l1 := D0.sd_lt keep0 ht i1
    obtain ⟨a0, ha0⟩ : ∃ a0, a0 = (sd (fun v => v) keep0 t i1).1 := ⟨_, rfl⟩
    rw [← ha0] at d1 l1
    obtain ⟨root, p, rank, H, tr, j, er, ej⟩ := trees a0 l1.1
    obtain ⟨kc, tc, ic, ec, -, -, only⟩ := D0.consecutive three dir0 l1.1
    have r1 := only k t i1 et (.inl (Prod.ext ha0.symm d1))
    have r2 := only root tr j er (by
      rcases edge_eq.1 ej with ⟨h1, h2⟩ | ⟨h1, h2⟩ <;> cases keep0 <;> simp [sd, h1, h2])
    obtain rfl : root = k := r2.1.trans r1.1.symm
    obtain ⟨order, h1, h2, h3⟩ := walk_tree H
    refine ⟨root, order, ek, h1, h2, insert_all D H inj lt Bw free ?_ h2 h3⟩
    rcases first with h | ⟨rfl, h⟩
    · exact .inl h
    · cases hk : ke with
      | true => exact .inl rfl
      | false =>
        right
        intro t' et'
        obtain rfl : t = t' := Option.some.inj (et.symm.trans et')
        rw [hk] at hsd
        simp only [sd, Bool.false_eq_true, if_false, Prod.mk.injEq] at hsd
        refine ⟨((a + 1) % n, a), (orient_pairs true).2 ⟨i1, ?_⟩, h⟩
        simp only [if_true]
        rw [hsd.1, hsd.2]
  have finish : ∀ (e : Nat × Nat) (k : Nat) (order : List Nat) (ke : Bool), seedEdge cc i w.seed d.fixed pick = some e → seedTri (faceVertex n flipped) d.tris e = some k → walk d.fixed d.tris d.tris.length [k] [] = some order → order.Perm (List.range d.tris.length) →
      (insertTris W (faceVertex n flipped) d.tris order w.mesh).2 = (order.filterMap (d.tris[·]?)).map (orient (faceVertex n flipped) ke) →
      emit d0 cc i flipped pick d = some ((order.filterMap (d.tris[·]?)).map (orient (faceVertex n flipped) ke)) ∧ SameTris (faceVertex n flipped) d.tris ((order.filterMap (d.tris[·]?)).map (orient (faceVertex n flipped) ke)) := by
    intro e k order ke h1 h2 h3 h4 h5
    constructor
    · unfold emit
      simp only
      rw [fl, ew, Option.bind_some, h1, Option.bind_some, h2, Option.bind_some, h3, Option.bind_some, if_pos, ← h5, hW, hfv]
      rw [(h4.nodup_iff.2 List.nodup_range).dedup, h4.length_eq, List.length_range]
    · exact ⟨ke, order, h4, same_tris ke order fun k hk => List.mem_range.1 (h4.mem_iff.1 hk)⟩
  have dfix : ∀ a b, edge a b ∈ d.fixed ↔ ∃ i < n, edge a b = edge i ((i + 1) % n) := by
    intro a b
    rw [E.fixed_edges, O.fix]
    constructor
    · rintro ⟨i, h1, h2⟩
      exact ⟨i, h1, (edge_add _ _ ⟨_, rfl⟩ _ _).1 h2⟩
    · rintro ⟨i, h1, h2⟩
      exact ⟨i, h1, (edge_add _ _ ⟨_, rfl⟩ _ _).2 h2⟩
  have of_edge : ∀ e ∈ d.fixed, ∃ a < n, e = edge a ((a + 1) % n) := by
    intro x hx
    obtain ⟨a, b, rfl⟩ := done_fixed e x hx
    exact (dfix a b).1 hx
  have edge_or : ∀ a b, edge a b = (a, b) ∨ edge a b = (b, a) := by
    intro a b; unfold edge; split
    · exact .inl rfl
    · exact .inr rfl
  cases hs : w.seed with
  | none =>
    have sn := wno hs
    have nb : nbrs = [] := by rw [hnb, sn]; rfl
    obtain ⟨a, ha, epk⟩ := of_edge pick hp
    obtain ⟨k, order, h1, h2, h3, h4⟩ := key pick a ha (by rw [epk]; exact edge_or _ _) true (by rw [nb]; simp) (.inl rfl)
    obtain ⟨h5, h6⟩ := finish pick k order true (by rw [hs]; unfold seedEdge; simp only; rw [if_pos hp]) h1 h2 h3 h4
    refine ⟨_, h5, h6, ?_⟩
    have F := fills D three count dir h3
    cases keep with
    | true => exact .inl F
    | false =>
      right
      constructor
      · intro g hg hac
        obtain ⟨j, ej⟩ := List.mem_iff_getElem?.1 hg
        have := (wseen j).2 ((across_iff B hi ej).1 hac)
        rw [sn] at this
        cases this
      · rw [List.map_map]
        have : (List.reverse ∘ orient (faceVertex n flipped) true) = orient (faceVertex n flipped) false := funext fun t => orient_reverse true t
        rw [this]; exact F
  | some hh =>
    obtain ⟨hin, j, ej⟩ := wseed hh hs
    -- the seed halfedge
    have W' := reachable_wf B.reach
    have pin : ((cc.hd (opposite hh)).t, (cc.hd hh).t) ∈ cycPairs fv := by
      rw [fvf, ← B.face_pairs i f hi]
      exact List.mem_map.2 ⟨hh, hin, rfl⟩
    obtain ⟨a, ha, a1, a2⟩ := pair_next _ pin
    simp only at a1 a2
    have idx : ∀ {c z : Nat}, fv[c]? = some z → fv.idxOf z = c := by
      intro c z ez
      obtain ⟨hc, rfl⟩ := List.getElem?_eq_some_iff.1 ez
      exact List.Nodup.idxOf_getElem (by rw [hfv]; exact fnd) c hc
    have hb := Nat.mod_lt (a + 1) (show 0 < n by omega)
    obtain ⟨e1, ee, hee⟩ : ∃ e1, seedEdge cc i w.seed d.fixed pick = some e1 ∧ (e1 = (a, (a + 1) % n) ∨ e1 = ((a + 1) % n, a)) := by
      have se : seedEdge cc i w.seed d.fixed pick = d.fixed.find? (fun e => (e.1 == a && e.2 == (a + 1) % n) || (e.2 == a && e.1 == (a + 1) % n)) := by
        rw [hs]
        unfold seedEdge
        simp only
        rw [← hfv, show cc.target (opposite hh) = (cc.hd (opposite hh)).t from rfl, show cc.target hh = (cc.hd hh).t from rfl, idx a1, idx a2]
      have some1 : (d.fixed.find? (fun e => (e.1 == a && e.2 == (a + 1) % n) || (e.2 == a && e.1 == (a + 1) % n))).isSome := by
        rw [List.find?_isSome]
        refine ⟨edge a ((a + 1) % n), (dfix _ _).2 ⟨a, ha, rfl⟩, ?_⟩
        rcases edge_or a ((a + 1) % n) with h | h <;> rw [h] <;> simp
      obtain ⟨e1, h1⟩ := Option.isSome_iff_exists.1 some1
      refine ⟨e1, se.trans h1, ?_⟩
      have := List.find?_some h1
      simp only [Bool.or_eq_true, Bool.and_eq_true, beq_iff_eq] at this
      rcases this with ⟨h1, h2⟩ | ⟨h1, h2⟩
      · exact .inl (Prod.ext h1 h2)
      · exact .inr (Prod.ext h2 h1)
    have js := (wseen j).2 ⟨hh, hin, ej⟩
    have used : (W ((a + 1) % n), W a) ∈ nbrs.flatMap cycPairs := by
      obtain ⟨g, eg, -⟩ := seen_face j js
      have := (face_lt B (W'.opp_live ((W'.faceOK ((B.liveF i).2 il)).mem hh hin).1) ej).2
      have pg : ((cc.hd hh).t, (cc.hd (opposite hh)).t) ∈ cycPairs g := by
        rw [← B.face_pairs j g eg]
        exact List.mem_map.2 ⟨_, this, by rw [opposite_opposite]⟩
      rw [W_at a1, W_at a2, hnb]
      refine List.mem_flatMap.2 ⟨_, List.mem_map.2 ⟨j, js, rfl⟩, ?_⟩
      rw [cyc_map]
      exact List.mem_map.2 ⟨_, (vaf_pairs B eg _).2 pg, rfl⟩
    have F0 := fills D three count dir (List.Perm.refl (List.range d.tris.length))
    rw [filterMap_range] at F0
    have free : ∀ t ∈ d.tris, ∀ q ∈ cycPairs (orient (faceVertex n flipped) keep t), (W q.1, W q.2) ∉ nbrs.flatMap cycPairs := by
      intro t ht q hq hu
      have lq : q.1 < n ∧ q.2 < n := by
        obtain ⟨i1, hi1⟩ := (orient_pairs keep).1 hq
        rw [show q = sd (faceVertex n flipped) keep t i1 from hi1]
        exact D.sd_lt keep ht i1
      have := chord lq.1 lq.2 hu
      have r := (F0.rim q.2 ((q.2 + 1) % n)).2 ⟨lq.2, rfl⟩
      rw [← this] at r
      exact r.2 (List.mem_flatMap.2 ⟨_, List.mem_map.2 ⟨t, ht, rfl⟩, by rw [dirEdges_eq]; exact hq⟩)
    obtain ⟨k, order, h1, h2, h3, h4⟩ := key e1 a ha hee keep free (.inr ⟨rfl, used⟩)
    obtain ⟨h5, h6⟩ := finish e1 k order keep ee h1 h2 h3 h4
    exact ⟨_, h5, h6, .inl (fills D three count dir h3)⟩

/-! ## Examples -/

/-- The L-shaped face with a triangle at each edge; all of these triangles meet. -/
def elFaces : List (List Nat) := [[5, 0, 1, 2, 3, 4], [1, 0, 6], [2, 1, 6], [3, 2, 6], [4, 3, 6], [5, 4, 6], [0, 5, 6]]

def elMesh : Mesh Unit := (addFaces (addVertices (Mesh.empty ()) (List.replicate 7 ())) elFaces).1

theorem el_component : Component () (List.replicate 7 ()) elFaces elMesh := by
  refine component_of_addFaces ?_ (by decide +kernel)
  unfold GoodFace; decide

theorem el_nochord : NoChord elFaces 0 := by
  intro f hf
  have : f = [5, 0, 1, 2, 3, 4] := by simpa [elFaces] using hf.symm
  subst this
  unfold Across
  decide +kernel

/-- The four triangles of the L-shaped face are in the output. -/
theorem C88_demo : ∃ s fixed d out, elSt = some s ∧ insertEdges s 6 = some fixed ∧ eraseOuter s fixed = some d ∧ emit () elMesh 0 false (0, 0) d = some out ∧ Fills 6 out ∧ out.length = 4 := by
  obtain ⟨s, fixed, -, -, es, ef, F, -⟩ := C86_demo
  obtain ⟨s', es', T⟩ := el_triangulation
  rw [es] at es'
  obtain rfl := Option.some.inj es'
  obtain ⟨F', O⟩ := C87_insert_partial (pos := elPos) (by omega) T ef
  obtain ⟨_, d, ed, E, -⟩ := C86_erase el_placed T F'
  have pk : ∃ pick, pick ∈ d.fixed := ⟨edge 0 1, (E.fixed_edges 0 1).2 ((O.fix _ _).2 ⟨0, by omega, rfl⟩)⟩
  obtain ⟨pick, hp⟩ := pk
  obtain ⟨out, h1, -, h2⟩ := C88_emit_partial (f := [5, 0, 1, 2, 3, 4]) el_component rfl el_nochord el_placed T F' O ed false hp
  have h3 : Fills 6 out := by
    rcases h2 with h | ⟨h, -⟩
    · exact h
    · exact absurd (by unfold Across; decide) (h [1, 0, 6] (by simp [elFaces]))
  have c := h3.count
  have e : emit () elMesh 0 false (0, 0) d = emit () elMesh 0 false pick d := by
    unfold emit
    obtain ⟨ps, w, ew, -, -, wseen, wno, -⟩ := make_spec el_component.built el_component.1 (i := 0) (by decide)
    rw [ew]
    have : w.seed ≠ none := by
      intro hn
      have hs := wno hn
      have : (1 : Nat) ∈ w.seen := (wseen 1).2 ((across_iff el_component.built (f := [5, 0, 1, 2, 3, 4]) (g := [1, 0, 6]) rfl rfl).1 (by unfold Across; decide))
      rw [hs] at this
      cases this
    cases hw : w.seed with
    | none => exact absurd hw this
    | some h =>
      have : ∀ p, seedEdge elMesh 0 w.seed d.fixed p = seedEdge elMesh 0 (some h) d.fixed (0, 0) := fun p => by rw [hw]; rfl
      simp only [Option.bind_some]
      rw [this (0, 0), this pick]
  exact ⟨s, fixed, d, out, es, ef, ed, e.trans h1, h3, by omega⟩

/-- A quad on two triangles that are glued together along the other diagonal of the quad. -/
def pillowFaces : List (List Nat) := [[3, 0, 1, 2], [1, 0, 3], [2, 1, 3]]

def pillowMesh : Mesh Unit := (addFaces (addVertices (Mesh.empty ()) (List.replicate 4 ())) pillowFaces).1

def pillowPos (v : Nat) : V2 ℚ := ([⟨-40, -20⟩, ⟨40, -20⟩, ⟨0, 60⟩, ⟨0, -4⟩, ⟨1, 0⟩, ⟨0, 4⟩, ⟨-1, 0⟩][v]?).getD ⟨0, 0⟩

def pillowWalk (s : St) (v : Nat) : Nat := s.tris.findIdx (fun t => decide (locate (pillowPos v) (pillowPos (t.v 0)) (pillowPos (t.v 1)) (pillowPos (t.v 2)) ≠ .outside))

/-- Without the hypothesis on chords triangles are lost: the triangulator gives two triangles for the quad, with the diagonal that is also an edge of both its neighbours; neither triangle gets into the output, so the face is missing there. -/
theorem C88_chord_fails : Component () (List.replicate 4 ()) pillowFaces pillowMesh ∧
    ∃ s fixed d out, insertVertices pillowPos pillowWalk 4 = some s ∧ insertEdges s 4 = some fixed ∧ eraseOuter s fixed = some d ∧ d.tris.length = 2 ∧ emit () pillowMesh 0 false (0, 1) d = some out ∧ out = [] := by
  constructor
  · refine component_of_addFaces ?_ (by decide +kernel)
    unfold GoodFace; decide
  · have h : (((insertVertices pillowPos pillowWalk 4).bind fun s => (insertEdges s 4).bind fun fixed => (eraseOuter s fixed).bind fun d => (emit () pillowMesh 0 false (0, 1) d).map fun out => (d.tris.length, out.length)).any (fun x => x.1 == 2 && x.2 == 0)) = true := by decide +kernel
    rw [Option.any_eq_true] at h
    obtain ⟨x, hx, hb⟩ := h
    obtain ⟨s, h1, hx⟩ := Option.bind_eq_some_iff.1 hx
    obtain ⟨fixed, h2, hx⟩ := Option.bind_eq_some_iff.1 hx
    obtain ⟨d, h3, hx⟩ := Option.bind_eq_some_iff.1 hx
    obtain ⟨out, h4, rfl⟩ := Option.map_eq_some_iff.1 hx
    simp only [Bool.and_eq_true, beq_iff_eq] at hb
    exact ⟨s, fixed, d, out, h1, h2, h3, hb.1, h4, List.length_eq_zero_iff.1 hb.2⟩

end Mcut.Cdt
