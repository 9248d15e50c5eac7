import Verif.Lemmas.C88Fill
import Verif.Props.C59

/-! # The winding order tracker -/
namespace Mcut.Cdt
open Mcut.Hmesh Mcut.Preproc

variable {P : Type} {d0 : P} {cc : Mesh P} {cpts : List P} {fs : List (List Nat)}

theorem built_vertex {d : P} {pts : List P} {fs : List (List Nat)} {m : Mesh P} (B : Built d pts fs m) (p : P) : Built d (pts ++ [p]) fs (m.addVertex p).1 := by
  have hr : Reachable d (m.addVertex p).1 := .step m (.addVertex p) B.reach trivial
  have e : (m.addVertex p).1 = { m with nV := m.nV + 1, vh := upd m.vh m.nV [], pos := upd m.pos m.nV p } := by
    simp [Mesh.addVertex, B.vRem, Mesh.numVertices]
  rw [e] at hr ⊢
  have hb := B.nV
  refine ⟨hr, B.vRem, B.fRem, by simp [hb], B.nF, ?_, B.tgts, B.srcs, B.uniq, B.only⟩
  intro v q hq
  simp only
  by_cases hv : v = m.nV
  · subst hv
    rw [upd_same]
    rw [List.getElem?_append_right (by omega), hb] at hq
    simpa using hq
  · rw [upd_other _ _ _ _ hv]
    have hlt : v < pts.length := by
      have := (List.getElem?_eq_some_iff.1 hq).1
      simp at this; omega
    rw [List.getElem?_append_left hlt] at hq
    exact B.pos v q hq

theorem vaf (B : Built d0 cpts fs cc) {j : Nat} {f : List Nat} (h : fs[j]? = some f) : cc.verticesAroundFace j = f.rotate 1 := B.tgts j f h

theorem vaf_pairs (B : Built d0 cpts fs cc) {j : Nat} {f : List Nat} (h : fs[j]? = some f) (p : Nat × Nat) : p ∈ cycPairs (cc.verticesAroundFace j) ↔ p ∈ cycPairs f := by
  rw [vaf B h, Extract.mem_rotate_pairs]

/-- Different faces have no directed edge in common. -/
theorem apart (B : Built d0 cpts fs cc) {j j' : Nat} {f f' : List Nat} (h : fs[j]? = some f) (h' : fs[j']? = some f') {p : Nat × Nat} (hp : p ∈ cycPairs f) (hp' : p ∈ cycPairs f') : j = j' := by
  have W := reachable_wf B.reach
  rw [← B.face_pairs j f h] at hp
  rw [← B.face_pairs j' f' h'] at hp'
  obtain ⟨x, hx, rfl⟩ := List.mem_map.1 hp
  obtain ⟨y, hy, e⟩ := List.mem_map.1 hp'
  have hx' := (W.faceOK ((B.liveF j).2 (List.getElem?_eq_some_iff.1 h).1)).mem x hx
  have hy' := (W.faceOK ((B.liveF j').2 (List.getElem?_eq_some_iff.1 h').1)).mem y hy
  obtain ⟨e1, e2⟩ := Prod.mk.inj e
  obtain rfl := B.uniq y x hy'.1 hx'.1 e1 e2
  exact Option.some.inj (hx'.2.symm.trans hy'.2)

/-- What is known about the tracker. -/
structure Tracks (d0 : P) (cc : Mesh P) (pts : List P) (w : Tracker P) : Prop where
  built : Built d0 pts (w.seen.map (fun j => (cc.verticesAroundFace j).map (w.order.idxOf ·))) w.mesh
  len : pts.length = w.order.length
  nodup : w.order.Nodup
  all : ∀ j ∈ w.seen, ∀ v ∈ cc.verticesAroundFace j, v ∈ w.order

theorem Tracks.vertex {pts : List P} {w : Tracker P} (T : Tracks d0 cc pts w) (v : Nat) :
    ∃ pts', Tracks d0 cc pts' (Tracker.vertex cc w v) ∧ (Tracker.vertex cc w v).seen = w.seen ∧ (Tracker.vertex cc w v).seed = w.seed ∧ ∀ u, u ∈ (Tracker.vertex cc w v).order ↔ u ∈ w.order ∨ u = v := by
  unfold Tracker.vertex
  by_cases hv : v ∈ w.order
  · rw [if_pos hv]
    exact ⟨pts, T, rfl, rfl, fun u => ⟨.inl, fun h => h.elim id (fun h => h ▸ hv)⟩⟩
  · rw [if_neg hv]
    refine ⟨pts ++ [cc.pos v], ⟨?_, by simp [T.len], ?_, ?_⟩, rfl, rfl, by simp⟩
    · have B := built_vertex T.built (cc.pos v)
      have : w.seen.map (fun j => (cc.verticesAroundFace j).map ((w.order ++ [v]).idxOf ·)) = w.seen.map (fun j => (cc.verticesAroundFace j).map (w.order.idxOf ·)) := by
        apply List.map_congr_left
        intro j hj
        apply List.map_congr_left
        intro u hu
        exact List.idxOf_append_of_mem (T.all j hj u hu)
      show Built d0 _ (w.seen.map _) _
      rw [this]; exact B
    · show (w.order ++ [v]).Nodup
      rw [List.nodup_append]
      refine ⟨T.nodup, List.nodup_singleton v, ?_⟩
      intro a ha b hb hab
      rw [List.mem_singleton] at hb
      subst hab; subst hb
      exact hv ha
    · intro j hj u hu
      exact List.mem_append_left _ (T.all j hj u hu)

theorem Tracks.vertices {pts : List P} {w : Tracker P} (T : Tracks d0 cc pts w) (vs : List Nat) :
    ∃ pts', Tracks d0 cc pts' (vs.foldl (Tracker.vertex cc) w) ∧ (vs.foldl (Tracker.vertex cc) w).seen = w.seen ∧ (vs.foldl (Tracker.vertex cc) w).seed = w.seed ∧ ∀ u, u ∈ (vs.foldl (Tracker.vertex cc) w).order ↔ u ∈ w.order ∨ u ∈ vs := by
  induction vs generalizing pts w with
  | nil => exact ⟨pts, T, rfl, rfl, by simp⟩
  | cons v vs ih =>
    obtain ⟨p1, T1, s1, d1, o1⟩ := T.vertex v
    obtain ⟨p2, T2, s2, d2, o2⟩ := ih T1
    refine ⟨p2, T2, s2.trans s1, d2.trans d1, fun u => ?_⟩
    rw [List.foldl_cons, o2, o1, List.mem_cons]
    tauto

theorem idx_inj {l : List Nat} {a b : Nat} (ha : a ∈ l) (h : l.idxOf a = l.idxOf b) : a = b := (List.idxOf_inj ha).1 h

theorem Tracks.neighbour (B : Built d0 cpts fs cc) (G : ∀ f ∈ fs, GoodFace cpts.length f) {pts : List P} {w : Tracker P} (T : Tracks d0 cc pts w) (lt : ∀ j ∈ w.seen, j < fs.length) {j : Nat} (hj : j < fs.length) (hn : j ∉ w.seen) :
    ∃ pts' w', Tracker.neighbour cc w j = some w' ∧ Tracks d0 cc pts' w' ∧ w'.seen = w.seen ++ [j] ∧ w'.seed = w.seed := by
  obtain ⟨p1, T1, s1, d1, o1⟩ := T.vertices (cc.verticesAroundFace j)
  unfold Tracker.neighbour
  obtain ⟨w1, hw1⟩ : ∃ w1, w1 = (cc.verticesAroundFace j).foldl (Tracker.vertex cc) w := ⟨_, rfl⟩
  rw [← hw1] at T1 s1 d1 o1
  simp only [← hw1]
  have ef := List.getElem?_eq_getElem hj
  have gf := G _ (List.getElem_mem hj)
  have hin : ∀ v ∈ cc.verticesAroundFace j, v ∈ w1.order := fun v hv => (o1 v).2 (.inr hv)
  have GF : GoodFace p1.length ((cc.verticesAroundFace j).map (w1.order.idxOf ·)) := by
    refine ⟨by rw [List.length_map, vaf B ef, List.length_rotate]; exact gf.1, ?_, ?_⟩
    · refine (List.nodup_map_iff_inj_on (by rw [vaf B ef, List.nodup_rotate]; exact gf.2.1)).2 fun a ha b hb e => idx_inj (hin a ha) e
    · intro v hv
      obtain ⟨a, ha, rfl⟩ := List.mem_map.1 hv
      rw [T1.len]
      exact List.idxOf_lt_length_iff.2 (hin a ha)
  have A := T1.built.accept _ GF
  have ok := A.1.2 (by
    intro q hq hu
    rw [cyc_map] at hq
    obtain ⟨q1, h1, rfl⟩ := List.mem_map.1 hq
    obtain ⟨f, hf, hq2⟩ := List.mem_flatMap.1 hu
    obtain ⟨j', hj', rfl⟩ := List.mem_map.1 hf
    rw [cyc_map] at hq2
    obtain ⟨q2, h2, e⟩ := List.mem_map.1 hq2
    obtain ⟨e1, e2⟩ := Prod.mk.inj e
    have m2 : q2.1 ∈ cc.verticesAroundFace j' ∧ q2.2 ∈ cc.verticesAroundFace j' := by
      obtain ⟨i, -, a, b⟩ := cycPairs_mem _ _ h2
      exact ⟨List.mem_of_getElem? a, List.mem_of_getElem? b⟩
    have i1 := idx_inj (T1.all j' hj' _ m2.1) e1
    have i2 := idx_inj (T1.all j' hj' _ m2.2) e2
    have : q2 = q1 := Prod.ext i1 i2
    subst this
    rw [s1] at hj'
    have ef' := List.getElem?_eq_getElem (lt j' hj')
    have := apart B ef ef' ((vaf_pairs B ef q2).1 h1) ((vaf_pairs B ef' q2).1 h2)
    subst this
    exact hn hj')
  rw [if_neg ok]
  refine ⟨p1, _, rfl, ⟨?_, T1.len, T1.nodup, ?_⟩, by simp [s1], by simp [d1]⟩
  · have := A.2 ok
    simpa [s1] using this
  · intro j' hj' v hv
    rcases List.mem_append.1 hj' with h | h
    · exact T1.all j' h v hv
    · rw [List.mem_singleton] at h; subst h; exact hin v hv

/-- The halfedges of the face. -/
theorem Tracks.halfedges (B : Built d0 cpts fs cc) (G : ∀ f ∈ fs, GoodFace cpts.length f) (hs : List Nat) (hl : ∀ h ∈ hs, ∀ j, cc.face (opposite h) = some j → j < fs.length) : ∀ {pts : List P} {w : Tracker P}, Tracks d0 cc pts w →
    (∀ j ∈ w.seen, j < fs.length) → (w.seed = none → w.seen = []) →
    ∃ pts' w', hs.foldlM (Tracker.halfedge cc) w = some w' ∧ Tracks d0 cc pts' w' ∧ (∀ j, j ∈ w'.seen ↔ j ∈ w.seen ∨ ∃ h ∈ hs, cc.face (opposite h) = some j) ∧
      (w'.seed = none → w'.seen = []) ∧ (∀ h, w'.seed = some h → w.seed = some h ∨ h ∈ hs ∧ ∃ j, cc.face (opposite h) = some j) := by
  induction hs with
  | nil => intro pts w T _ hsn; exact ⟨pts, w, rfl, T, by simp, hsn, fun h e => .inl e⟩
  | cons h hs ih =>
    intro pts w T lt hsn
    have hl' : ∀ h ∈ hs, ∀ j, cc.face (opposite h) = some j → j < fs.length := fun h hh => hl h (by simp [hh])
    rw [List.foldlM_cons]
    have skip : Tracker.halfedge cc w h = some w → (∀ j, cc.face (opposite h) = some j → j ∈ w.seen) →
        ∃ pts' w', (Tracker.halfedge cc w h >>= fun w => hs.foldlM (Tracker.halfedge cc) w) = some w' ∧ Tracks d0 cc pts' w' ∧ (∀ j, j ∈ w'.seen ↔ j ∈ w.seen ∨ ∃ h' ∈ h :: hs, cc.face (opposite h') = some j) ∧
        (w'.seed = none → w'.seen = []) ∧ (∀ h', w'.seed = some h' → w.seed = some h' ∨ h' ∈ h :: hs ∧ ∃ j, cc.face (opposite h') = some j) := by
      intro e hin
      obtain ⟨p2, w2, e2, T2, s2, n2, d2⟩ := ih hl' T lt hsn
      refine ⟨p2, w2, by rw [e]; exact e2, T2, fun j => ?_, n2, fun h' hh => ?_⟩
      · rw [s2]
        constructor
        · rintro (h1 | ⟨h', h1, h2⟩)
          · exact .inl h1
          · exact .inr ⟨h', by simp [h1], h2⟩
        · rintro (h1 | ⟨h', h1, h2⟩)
          · exact .inl h1
          · rcases List.mem_cons.1 h1 with rfl | h1
            · exact .inl (hin j h2)
            · exact .inr ⟨h', h1, h2⟩
      · rcases d2 h' hh with h1 | ⟨h1, h2⟩
        · exact .inl h1
        · exact .inr ⟨by simp [h1], h2⟩
    cases hf : cc.face (opposite h) with
    | none => exact skip (by unfold Tracker.halfedge; rw [hf]) (by rw [hf]; intro j hj; cases hj)
    | some j =>
      by_cases hin : j ∈ w.seen
      · exact skip (by unfold Tracker.halfedge; rw [hf]; simp only; rw [if_pos hin]) (by rw [hf]; intro j' hj; cases hj; exact hin)
      · have T' : Tracks d0 cc pts { w with seed := if w.seed.isNone then some h else w.seed } := ⟨T.built, T.len, T.nodup, T.all⟩
        obtain ⟨p1, w1, e1, T1, s1, d1⟩ := T'.neighbour B G lt (hl h (by simp) j hf) hin
        have e0 : Tracker.halfedge cc w h = some w1 := by
          unfold Tracker.halfedge
          rw [hf]; simp only
          rw [if_neg hin]; exact e1
        simp only at s1 d1
        have seed1 : w1.seed ≠ none := by
          rw [d1]
          cases hw : w.seed <;> simp
        obtain ⟨p2, w2, e2, T2, s2, n2, d2⟩ := ih hl' T1 (by
          rw [s1]; intro j' hj'
          rcases List.mem_append.1 hj' with h1 | h1
          · exact lt j' h1
          · rw [List.mem_singleton] at h1; subst h1; exact hl h (by simp) j' hf) (fun h => absurd h seed1)
        refine ⟨p2, w2, by rw [e0]; exact e2, T2, fun j' => ?_, n2, fun h' hh => ?_⟩
        · rw [s2, s1, List.mem_append, List.mem_singleton]
          constructor
          · rintro ((h1 | rfl) | ⟨h', h1, h2⟩)
            · exact .inl h1
            · exact .inr ⟨h, by simp, hf⟩
            · exact .inr ⟨h', by simp [h1], h2⟩
          · rintro (h1 | ⟨h', h1, h2⟩)
            · exact .inl (.inl h1)
            · rcases List.mem_cons.1 h1 with rfl | h1
              · rw [hf] at h2; exact .inl (.inr (Option.some.inj h2).symm)
              · exact .inr ⟨h', h1, h2⟩
        · rcases d2 h' hh with h1 | ⟨h1, h2⟩
          · rw [d1] at h1
            cases hw : w.seed with
            | none =>
              rw [hw] at h1
              simp only [Option.isNone_none, if_true, Option.some.injEq] at h1
              subst h1
              exact .inr ⟨by simp, j, hf⟩
            | some a =>
              rw [hw] at h1
              simp only [Option.isNone_some, Bool.false_eq_true, if_false] at h1
              exact .inl h1
          · exact .inr ⟨by simp [h1], h2⟩

theorem face_lt (B : Built d0 cpts fs cc) {h j : Nat} (hh : LiveH cc h) (e : cc.face h = some j) : j < fs.length ∧ h ∈ cc.fh j := by
  have W := reachable_wf B.reach
  obtain ⟨l, hg⟩ := W.ofFace hh e
  exact ⟨(B.liveF j).1 l, hg⟩

/-- The tracker of a face: the faces across its edges, and all its corners. -/
theorem make_spec (B : Built d0 cpts fs cc) (G : ∀ f ∈ fs, GoodFace cpts.length f) {i : Nat} (hi : i < fs.length) :
    ∃ pts w, Tracker.make d0 cc i = some w ∧ Tracks d0 cc pts w ∧ (∀ v ∈ cc.verticesAroundFace i, v ∈ w.order) ∧
      (∀ j, j ∈ w.seen ↔ ∃ h ∈ cc.fh i, cc.face (opposite h) = some j) ∧ (w.seed = none → w.seen = []) ∧ (∀ h, w.seed = some h → h ∈ cc.fh i ∧ ∃ j, cc.face (opposite h) = some j) := by
  have W := reachable_wf B.reach
  have live : ∀ h ∈ cc.fh i, LiveH cc (opposite h) := fun h hh => W.opp_live ((W.faceOK ((B.liveF i).2 hi)).mem h hh).1
  have T0 : Tracks d0 cc [] ⟨Mesh.empty d0, [], [], none⟩ := ⟨Built.empty d0, rfl, List.nodup_nil, by simp⟩
  obtain ⟨p1, w1, e1, T1, s1, n1, d1⟩ := T0.halfedges B G (cc.fh i) (fun h hh j hj => (face_lt B (live h hh) hj).1) (by simp) (fun _ => rfl)
  obtain ⟨p2, T2, s2, d2, o2⟩ := T1.vertices (cc.verticesAroundFace i)
  refine ⟨p2, _, by unfold Tracker.make; rw [e1]; rfl, T2, fun v hv => (o2 v).2 (.inr hv), fun j => ?_, ?_, ?_⟩
  · rw [s2, s1]; simp
  · rw [s2, d2]; exact n1
  · intro h hh
    rw [d2] at hh
    rcases d1 h hh with h1 | h1
    · cases h1
    · exact h1

end Mcut.Cdt
