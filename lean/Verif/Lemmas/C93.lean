import Verif.Spec.C93
import Verif.Lemmas.C66

/-! Lemmas for C93. -/
namespace Mcut.CutEdges
open Mcut.Hmesh Mcut.Registry
variable {P : Type}

/-- The faces in the registry entries of two points of a pair. -/
theorem Known.both {d : P} {ps : Mesh P} {smV smF base : Nat} {reg : List (Nat × Nat)} {cut : Nat × Nat → List Nat} (K : Known d ps smV smF base reg cut)
    (hnd : reg.Nodup) (h1 : OneCommonEdge ps) {k : Nat × Nat} {v w : Nat} (hne : v ≠ w) (hv : v ∈ cut k) (hw : w ∈ cut k) :
    ∃ x y, reg[v - base]? = some x ∧ reg[w - base]? = some y ∧ k.1 < smF ∧ smF ≤ k.2 ∧
      ∀ g, ((x.2 = g ∨ OnEdge ps x.1 g) ∧ (y.2 = g ∨ OnEdge ps y.1 g)) ↔ (g = k.1 ∨ g = k.2) := by
  obtain ⟨e, f, hb, hx, hk1, hk2, hv⟩ := K.entry hv
  obtain ⟨e', f', hb', hy, -, -, hw⟩ := K.entry hw
  have S := K.sided _ (List.mem_of_getElem? hx)
  have S' := K.sided _ (List.mem_of_getElem? hy)
  have le := K.live _ (List.mem_of_getElem? hx)
  have le' := K.live _ (List.mem_of_getElem? hy)
  refine ⟨_, _, hx, hy, hk1, hk2, fun g => ?_⟩
  simp only at S S' le le' ⊢
  have hdiff : ¬ (e = e' ∧ f = f') := by
    rintro ⟨rfl, rfl⟩
    have l1 := (List.getElem?_eq_some_iff.1 hx).1
    have := (List.getElem?_inj l1 hnd).1 (hx.trans hy.symm)
    omega
  constructor
  · rintro ⟨ha, hb⟩
    by_contra hg
    rw [not_or] at hg
    have o1 : OnEdge ps e g := by
      rcases ha with rfl | h
      · rcases hv with ⟨-, h⟩ | ⟨-, h⟩
        · exact absurd h hg.2
        · exact absurd h hg.1
      · exact h
    have o2 : OnEdge ps e' g := by
      rcases hb with rfl | h
      · rcases hw with ⟨-, h⟩ | ⟨-, h⟩
        · exact absurd h hg.2
        · exact absurd h hg.1
      · exact h
    have q1 := S.one g o1
    have q2 := S'.one g o2
    rcases hv with ⟨a1, a2⟩ | ⟨a1, a2⟩ <;> rcases hw with ⟨b1, b2⟩ | ⟨b1, b2⟩
    · exact hdiff ⟨h1 e e' g k.1 le le' hg.1 o1 a1 o2 b1, a2.trans b2.symm⟩
    · have r1 := S.one _ a1
      have r2 := S'.one _ b1
      have := q2.2 (r2.1 hk2)
      have := r1.2 (q1.1 this)
      omega
    · have r1 := S.one _ a1
      have r2 := S'.one _ b1
      have := q1.2 (r1.1 hk2)
      have := r2.2 (q2.1 this)
      omega
    · exact hdiff ⟨h1 e e' g k.2 le le' hg.2 o1 a1 o2 b1, a2.trans b2.symm⟩
  · rintro (rfl | rfl)
    · constructor
      · rcases hv with ⟨h, -⟩ | ⟨-, h⟩
        · exact .inr h
        · exact .inl h
      · rcases hw with ⟨h, -⟩ | ⟨-, h⟩
        · exact .inr h
        · exact .inl h
    · constructor
      · rcases hv with ⟨-, h⟩ | ⟨h, -⟩
        · exact .inl h
        · exact .inr h
      · rcases hw with ⟨-, h⟩ | ⟨h, -⟩
        · exact .inl h
        · exact .inr h

/-- Two points are common to one pair of faces only. -/
theorem Known.key_unique {d : P} {ps : Mesh P} {smV smF base : Nat} {reg : List (Nat × Nat)} {cut : Nat × Nat → List Nat} (K : Known d ps smV smF base reg cut)
    (hnd : reg.Nodup) (h1 : OneCommonEdge ps) {k k' : Nat × Nat} {v w : Nat} (hne : v ≠ w) (hv : v ∈ cut k) (hw : w ∈ cut k) (hv' : v ∈ cut k') (hw' : w ∈ cut k') :
    k = k' := by
  obtain ⟨x, y, hx, hy, a1, a2, h⟩ := K.both hnd h1 hne hv hw
  obtain ⟨x', y', hx', hy', b1, b2, h'⟩ := K.both hnd h1 hne hv' hw'
  rw [hx] at hx'; rw [hy] at hy'
  obtain rfl := Option.some.inj hx'
  obtain rfl := Option.some.inj hy'
  have e1 := (h' k.1).1 ((h k.1).2 (.inl rfl))
  have e2 := (h' k.2).1 ((h k.2).2 (.inr rfl))
  ext
  · rcases e1 with e | e
    · exact e
    · omega
  · rcases e2 with e | e
    · omega
    · exact e

/-- The loop invariant: `D` are the pairs of points that have been joined. -/
structure Going (d : P) (m : Mesh P) (seg : Nat × Nat → Nat → Nat → Prop) (D : Nat → Nat → Prop) (st : St P) : Prop where
  reach : Reachable d st.m0
  vRem : st.m0.vRem = []
  nV : st.m0.nV = m.nV
  pos : st.m0.pos = m.pos
  nE : st.m0.nE = st.cutEdges.length
  eRem : st.m0.eRem = []
  nF : st.m0.nF = 0
  fRem : st.m0.fRem = []
  numbers : st.cutEdges = List.range st.cutEdges.length
  only : ∀ e, e < st.cutEdges.length → ∃ k v w, seg k v w ∧ Joins st.m0 e v w
  every : ∀ v w, D v w → ∃ e, e < st.cutEdges.length ∧ Joins st.m0 e v w
  once : ∀ e, e < st.cutEdges.length → ∀ e', e' < st.cutEdges.length → ∀ v w, Joins st.m0 e v w → Joins st.m0 e' v w → e = e'
  facesNodup : ∀ f, (st.faceEdges f).Nodup
  faces : ∀ f e, e ∈ st.faceEdges f ↔ e < st.cutEdges.length ∧ ∃ k v w, seg k v w ∧ (f = k.1 ∨ f = k.2) ∧ Joins st.m0 e v w
  incoming : st.incoming = st.m0.vh

theorem Going.liveE {d : P} {m : Mesh P} {seg : Nat × Nat → Nat → Nat → Prop} {D : Nat → Nat → Prop} {st : St P} (p : Going d m seg D st) (e : Nat) :
    LiveE st.m0 e ↔ e < st.cutEdges.length := by
  show e < st.m0.nE ∧ e ∉ st.m0.eRem ↔ _
  rw [p.eRem, p.nE]; simp

/-- One more pair of points, which is joined already. -/
theorem Going.old {d : P} {m : Mesh P} {seg : Nat × Nat → Nat → Nat → Prop} {D : Nat → Nat → Prop} {st : St P} (p : Going d m seg D st) {v w : Nat} (hne : v ≠ w)
    (hex : (st.m0.halfedge v w true).isSome) : Going d m seg (fun a b => D a b ∨ (a = v ∧ b = w)) st := by
  obtain ⟨e, he, hj⟩ := (halfedge_joins (reachable_wf p.reach) hne).1 hex
  refine { p with every := ?_ }
  rintro a b (h | ⟨rfl, rfl⟩)
  · exact p.every a b h
  · exact ⟨e, (p.liveE e).1 he, hj⟩

/-- A new edge, recorded for the faces `k`. -/
theorem Going.new {d : P} {m : Mesh P} {seg : Nat × Nat → Nat → Nat → Prop} {D : Nat → Nat → Prop} {st : St P} (p : Going d m seg D st) {k : Nat × Nat} {v w : Nat}
    (hne : v ≠ w) (hs : seg k v w) (hu : ∀ k', seg k' v w ∨ seg k' w v → k' = k) (hlv : v < m.nV) (hlw : w < m.nV) (hno : ¬ (st.m0.halfedge v w true).isSome)
    (F : Nat → List Nat) (hF : ∀ g, F g = if g = k.1 ∨ g = k.2 then st.faceEdges g ++ [st.cutEdges.length] else st.faceEdges g) (fs : List Nat) :
    edgeOf (st.m0.addEdge v w).2 = st.cutEdges.length ∧ Going d m seg (fun a b => D a b ∨ (a = v ∧ b = w)) { addCut st v w fs with faceEdges := F } := by
  classical
  have W := reachable_wf p.reach
  have hno : ∀ e, e < st.cutEdges.length → ¬ Joins st.m0 e v w := fun e he hj => hno ((halfedge_joins W hne).2 ⟨e, (p.liveE e).2 he, hj⟩)
  obtain ⟨a1, E⟩ := addEdge_spec W v w hne
  have hnew : newEdge st.m0 = st.cutEdges.length := by unfold newEdge; rw [p.eRem]; exact p.nE
  rw [hnew] at a1 E
  have hlv : LiveV st.m0 v := ⟨by rw [p.nV]; exact hlv, by rw [p.vRem]; simp⟩
  have hlw : LiveV st.m0 w := ⟨by rw [p.nV]; exact hlw, by rw [p.vRem]; simp⟩
  have hr' : Reachable d (st.m0.addEdge v w).1 := .step st.m0 (.addEdge v w) p.reach ⟨hlv, hlw, hne⟩
  have hedge : edgeOf (st.m0.addEdge v w).2 = st.cutEdges.length := by rw [a1]; unfold edgeOf; omega
  refine ⟨hedge, ?_⟩
  have hopp : opposite (2 * st.cutEdges.length) = 2 * st.cutEdges.length + 1 := opposite_even _
  rw [a1] at hedge
  unfold addCut
  simp only [a1, hedge, hopp]
  generalize hme : (st.m0.addEdge v w).1 = me at *
  generalize hn : st.cutEdges.length = n at *
  have eRem' : me.eRem = [] := by rw [← hme]; unfold Mesh.addEdge Mesh.allocHalfedge Mesh.allocEdge; grind [p.eRem]
  have nE' : me.nE = n + 1 := by
    have h1 := (E.live n).2 (.inr rfl)
    have h2 : ∀ x, x < me.nE ↔ x < n ∨ x = n := by
      intro x
      have := E.live x
      unfold LiveE Live at this
      rw [eRem', p.eRem, p.nE, hn] at this
      simpa using this
    have h3 := (h2 n).2 (.inr rfl)
    have h4 : ¬ n + 1 < me.nE := fun h => by have := (h2 (n + 1)).1 h; omega
    omega
  have hold : ∀ e v' w', e < n → (Joins me e v' w' ↔ Joins st.m0 e v' w') := by
    intro e v' w' he
    unfold Joins Mesh.edgeVertex Mesh.target
    rw [E.hd (e * 2 + 0) (by omega), E.hd (e * 2 + 1) (by omega)]
  have hnewJ : ∀ v' w', Joins me n v' w' ↔ (v' = v ∧ w' = w) ∨ (v' = w ∧ w' = v) := by
    intro v' w'
    unfold Joins Mesh.edgeVertex Mesh.target
    rw [show n * 2 + 0 = 2 * n by omega, show n * 2 + 1 = 2 * n + 1 by omega, E.hd0, E.hd1]
    simp only
    constructor
    · rintro (⟨rfl, rfl⟩ | ⟨rfl, rfl⟩) <;> simp
    · rintro (⟨rfl, rfl⟩ | ⟨rfl, rfl⟩) <;> simp
  have hlen : (st.cutEdges ++ [n]).length = n + 1 := by simp [hn]
  have hfresh : ∀ f, n ∉ st.faceEdges f := fun f hf => by have := ((p.faces f n).1 hf).1; omega
  refine ⟨hr', by rw [E.vRem]; exact p.vRem, by rw [E.nV]; exact p.nV, by rw [E.pos]; exact p.pos, ?_, eRem', by rw [E.nF]; exact p.nF,
    by rw [E.fRem]; exact p.fRem, ?_, ?_, ?_, ?_, ?_, ?_, ?_⟩
  · simp only [hlen]; exact nE'
  · simp only [hlen]; rw [p.numbers, hn, List.range_succ]
  · simp only [hlen]
    intro e he
    rcases Nat.lt_or_ge e n with h | h
    · obtain ⟨k', v', w', hc, hj⟩ := p.only e (by omega)
      exact ⟨k', v', w', hc, (hold e v' w' h).2 hj⟩
    · have : e = n := by omega
      subst this
      exact ⟨k, v, w, hs, (hnewJ v w).2 (.inl ⟨rfl, rfl⟩)⟩
  · simp only [hlen]
    rintro a b (h | ⟨rfl, rfl⟩)
    · obtain ⟨e, he, hj⟩ := p.every a b h
      rw [hn] at he
      exact ⟨e, by omega, (hold e a b he).2 hj⟩
    · exact ⟨n, by omega, (hnewJ a b).2 (.inl ⟨rfl, rfl⟩)⟩
  · simp only [hlen]
    intro e he e' he' v' w' hj hj'
    have hnj : ∀ e, e < n → Joins me e v' w' → Joins me n v' w' → False := by
      intro e he h1 h2
      rw [hold e v' w' he] at h1
      rcases (hnewJ v' w').1 h2 with ⟨rfl, rfl⟩ | ⟨rfl, rfl⟩
      · exact hno e he h1
      · exact hno e he (joins_swap.1 h1)
    rcases Nat.lt_or_ge e n with h | h <;> rcases Nat.lt_or_ge e' n with h' | h'
    · exact p.once e (by omega) e' (by omega) v' w' ((hold e v' w' h).1 hj) ((hold e' v' w' h').1 hj')
    · have : e' = n := by omega
      subst this; exact absurd hj' (fun hj' => hnj e h hj hj')
    · have : e = n := by omega
      subst this; exact absurd hj (fun hj => hnj e' h' hj' hj)
    · omega
  · intro f
    simp only [hF]
    split
    · rw [List.nodup_append]
      exact ⟨p.facesNodup f, by simp, fun a ha b hb hab => by simp at hb; subst hb hab; exact hfresh f ha⟩
    · exact p.facesNodup f
  · intro f e
    simp only [hF, hlen]
    have hb : (∃ k' v' w', seg k' v' w' ∧ (f = k'.1 ∨ f = k'.2) ∧ Joins me n v' w') ↔ (f = k.1 ∨ f = k.2) := by
      constructor
      · rintro ⟨k', v', w', h1, h2, h3⟩
        have : k' = k := by
          rcases (hnewJ v' w').1 h3 with ⟨rfl, rfl⟩ | ⟨rfl, rfl⟩
          · exact hu k' (.inl h1)
          · exact hu k' (.inr h1)
        rw [← this]; exact h2
      · intro h
        exact ⟨k, v, w, hs, h, (hnewJ v w).2 (.inl ⟨rfl, rfl⟩)⟩
    rcases Nat.lt_or_ge e n with h | h
    · have : e ∈ (if f = k.1 ∨ f = k.2 then st.faceEdges f ++ [n] else st.faceEdges f) ↔ e ∈ st.faceEdges f := by
        split
        · simp only [List.mem_append, List.mem_singleton]
          constructor
          · rintro (h1 | h1)
            · exact h1
            · omega
          · exact .inl
        · rfl
      rw [this, p.faces f e, hn]
      simp only [hold e _ _ h]
      constructor
      · rintro ⟨-, hh⟩; exact ⟨by omega, hh⟩
      · rintro ⟨-, hh⟩; exact ⟨h, hh⟩
    · by_cases he : e = n
      · subst he
        rw [hb]
        constructor
        · intro hh
          split at hh
          · rename_i hx; exact ⟨by omega, hx⟩
          · exact absurd hh (hfresh f)
        · rintro ⟨-, hx⟩
          rw [if_pos hx]; simp
      · constructor
        · intro hh
          exfalso
          split at hh
          · simp only [List.mem_append, List.mem_singleton] at hh
            rcases hh with hh | hh
            · have := ((p.faces f e).1 hh).1; omega
            · exact he hh
          · have := ((p.faces f e).1 hh).1; omega
        · rintro ⟨hh, -⟩; omega
  · funext x
    rw [E.vh x, ← p.incoming]
    simp only [push]
    by_cases x1 : x = v
    · subst x1
      rw [if_pos rfl, if_neg hne]
      simp [hne]
    · by_cases x2 : x = w
      · subst x2; simp [x1]
      · simp [x1, x2]

/-- What the stage is about: all points that shall be joined are points of the pair. -/
structure Task (d : P) (ps : Mesh P) (smV smF base : Nat) (reg : List (Nat × Nat)) (cut : Nat × Nat → List Nat) (m : Mesh P)
    (seg : Nat × Nat → Nat → Nat → Prop) : Prop where
  K : Known d ps smV smF base reg cut
  nd : reg.Nodup
  one : OneCommonEdge ps
  nV : m.nV = base + reg.length
  seg : ∀ k v w, seg k v w → v ≠ w ∧ v ∈ cut k ∧ w ∈ cut k

theorem Task.uniq {d : P} {ps : Mesh P} {smV smF base : Nat} {reg : List (Nat × Nat)} {cut : Nat × Nat → List Nat} {m : Mesh P} {seg : Nat × Nat → Nat → Nat → Prop}
    (T : Task d ps smV smF base reg cut m seg) {k : Nat × Nat} {v w : Nat} (hne : v ≠ w) (hv : v ∈ cut k) (hw : w ∈ cut k) (k' : Nat × Nat) (h : seg k' v w ∨ seg k' w v) :
    k' = k := by
  rcases h with h | h
  · obtain ⟨-, a, b⟩ := T.seg _ _ _ h
    exact T.K.key_unique T.nd T.one hne a b hv hw
  · obtain ⟨-, a, b⟩ := T.seg _ _ _ h
    exact T.K.key_unique T.nd T.one hne b a hv hw

theorem Task.lt {d : P} {ps : Mesh P} {smV smF base : Nat} {reg : List (Nat × Nat)} {cut : Nat × Nat → List Nat} {m : Mesh P} {seg : Nat × Nat → Nat → Nat → Prop}
    (T : Task d ps smV smF base reg cut m seg) {k : Nat × Nat} {v : Nat} (hv : v ∈ cut k) : v < m.nV := by
  obtain ⟨e, f, hb, hr, -⟩ := T.K.entry hv
  have := (List.getElem?_eq_some_iff.1 hr).1
  rw [T.nV]; omega

theorem two_going {d : P} {ps : Mesh P} {smV smF base : Nat} {reg : List (Nat × Nat)} {cut : Nat × Nat → List Nat} {m : Mesh P} {seg : Nat × Nat → Nat → Nat → Prop}
    (T : Task d ps smV smF base reg cut m seg) {D : Nat → Nat → Prop} {st : St P} (p : Going d m seg D st) {k : Nat × Nat} {v w : Nat} (hs : seg k v w) :
    ∃ st', two ps base reg k.1 k.2 v w st = some st' ∧ Going d m seg (fun a b => D a b ∨ (a = v ∧ b = w)) st' := by
  obtain ⟨hne, hv, hw⟩ := T.seg _ _ _ hs
  obtain ⟨x, y, hx, hy, k1, k2, hb⟩ := T.K.both T.nd T.one hne hv hw
  unfold two
  split
  · exact ⟨st, rfl, p.old hne (by assumption)⟩
  · rename_i hno
    rw [hx, hy]
    simp only [Option.bind_some]
    refine ⟨_, rfl, ?_⟩
    have hedge := (p.new hne hs (T.uniq hne hv hw) (T.lt hv) (T.lt hw) hno _ (fun _ => rfl) [k.1, k.2]).1
    have hsc : k.1 ≠ k.2 := by omega
    have hfresh : ∀ f, st.cutEdges.length ∉ st.faceEdges f := fun f hf => by have := ((p.faces f _).1 hf).1; omega
    refine (p.new hne hs (T.uniq hne hv hw) (T.lt hv) (T.lt hw) hno _ ?_ [k.1, k.2]).2
    intro g
    unfold updateNeighbours
    rw [neighbours_fold (fun g => (registryFaces ps x).contains (some g) && (registryFaces ps y).contains (some g))]
    unfold addCut
    simp only [List.foldl_cons, List.foldl_nil, hedge]
    have hbg := hb g
    by_cases g1 : g = k.1
    · subst g1
      rw [push_other _ _ hsc, push_same, if_neg (by simp), if_pos (.inl rfl)]
    by_cases g2 : g = k.2
    · subst g2
      rw [push_same, push_other _ _ (Ne.symm hsc), if_neg (by simp), if_pos (.inr rfl)]
    rw [push_other _ _ g2, push_other _ _ g1, if_neg, if_neg (by tauto)]
    rintro ⟨-, h, -⟩
    rw [Bool.and_eq_true, registryFaces_mem, registryFaces_mem] at h
    exact absurd (hbg.1 h) (by tauto)

/-- The faces that both points are on. -/
theorem shared_perm {smV smF : Nat} {ps : Mesh P} {x y k : Nat × Nat} (S : Sided ps smV smF x.1 x.2) (hk : k.1 ≠ k.2)
    (hb : ∀ g, ((x.2 = g ∨ OnEdge ps x.1 g) ∧ (y.2 = g ∨ OnEdge ps y.1 g)) ↔ (g = k.1 ∨ g = k.2)) :
    (((registryFaces ps x).filterMap id).filter (fun f => (registryFaces ps y).contains (some f))).Perm [k.1, k.2] := by
  have hm : ∀ g, g ∈ (registryFaces ps x).filterMap id ↔ (x.2 = g ∨ OnEdge ps x.1 g) := by
    intro g
    rw [← registryFaces_mem, List.contains_iff_mem, List.mem_filterMap]
    simp
  have hn : ((registryFaces ps x).filterMap id).Nodup := by
    unfold registryFaces
    have n1 : ∀ g, OnEdge ps x.1 g → x.2 ≠ g := by
      intro g hg e
      have h1 := S.one g hg
      have h2 := S.face
      rw [e] at h2
      tauto
    have n2 := S.two
    unfold OnEdge at n1
    cases h0 : ps.face (halfedgeOf x.1 0) with
    | none =>
      cases h1 : ps.face (halfedgeOf x.1 1) with
      | none => simp
      | some b => simp; exact n1 b (.inr h1)
    | some a =>
      cases h1 : ps.face (halfedgeOf x.1 1) with
      | none => simp; exact n1 a (.inl h0)
      | some b =>
        have hab : a ≠ b := by rintro rfl; exact n2 a ⟨h0, h1⟩
        simp
        exact ⟨⟨n1 a (.inl h0), n1 b (.inr h1)⟩, hab⟩
  rw [List.perm_ext_iff_of_nodup (hn.filter _) (by simp [hk])]
  intro g
  rw [List.mem_filter, hm, registryFaces_mem, hb g]
  simp

theorem link_going {d : P} {ps : Mesh P} {smV smF base : Nat} {reg : List (Nat × Nat)} {cut : Nat × Nat → List Nat} {m : Mesh P} {seg : Nat × Nat → Nat → Nat → Prop}
    (T : Task d ps smV smF base reg cut m seg) {D : Nat → Nat → Prop} {st : St P} (p : Going d m seg D st) {k : Nat × Nat} {v w : Nat} (hne : v ≠ w) (hv : v ∈ cut k)
    (hw : w ∈ cut k) (inside : Nat → Nat → Nat → Bool) (hs : inside k.1 v w = true ∧ inside k.2 v w = true → seg k v w) :
    ∃ st', link ps base reg inside st v w = some st' ∧
      Going d m seg (fun a b => D a b ∨ ((inside k.1 v w = true ∧ inside k.2 v w = true) ∧ a = v ∧ b = w)) st' := by
  obtain ⟨x, y, hx, hy, k1, k2, hb⟩ := T.K.both T.nd T.one hne hv hw
  have hk : k.1 ≠ k.2 := by omega
  have S := T.K.sided _ (List.mem_of_getElem? hx)
  have weak : ∀ st', Going d m seg (fun a b => D a b ∨ (a = v ∧ b = w)) st' →
      Going d m seg (fun a b => D a b ∨ ((inside k.1 v w = true ∧ inside k.2 v w = true) ∧ a = v ∧ b = w)) st' := by
    intro st' q
    refine { q with every := fun a b h => q.every a b ?_ }
    rcases h with h | ⟨-, h⟩
    · exact .inl h
    · exact .inr h
  unfold link
  split
  · exact ⟨st, rfl, weak _ (p.old hne (by assumption))⟩
  · rename_i hno
    rw [hx, hy]
    simp only [Option.bind_some]
    refine ⟨_, rfl, ?_⟩
    have hp := (shared_perm S hk hb).filter (fun f => inside f v w)
    generalize ((registryFaces ps x).filterMap id).filter (fun f => (registryFaces ps y).contains (some f)) = sh at hp
    have hl : (sh.filter (fun f => inside f v w)).length = 2 ↔ (inside k.1 v w = true ∧ inside k.2 v w = true) := by
      rw [hp.length_eq]
      cases h1 : inside k.1 v w <;> cases h2 : inside k.2 v w <;> simp [h1, h2]
    split
    · rename_i h2
      have hin := hl.1 h2
      have hp' : (sh.filter (fun f => inside f v w)).Perm [k.1, k.2] := by
        refine hp.trans ?_
        rw [List.filter_cons_of_pos (by exact hin.1), List.filter_cons_of_pos (by exact hin.2)]; simp
      generalize sh.filter (fun f => inside f v w) = fs at hp'
      have hedge := (p.new hne (hs hin) (T.uniq hne hv hw) (T.lt hv) (T.lt hw) hno _ (fun _ => rfl) fs).1
      have hF : ∀ g, (addCut st v w fs).faceEdges g = if g = k.1 ∨ g = k.2 then st.faceEdges g ++ [st.cutEdges.length] else st.faceEdges g := by
        intro g
        unfold addCut
        simp only [hedge]
        have : fs = [k.1, k.2] ∨ fs = [k.2, k.1] := by
          have h3 := List.length_eq_two.1 (hp'.length_eq.trans rfl)
          obtain ⟨a, b, rfl⟩ := h3
          have h4 := hp'.mem_iff (a := k.1)
          have h5 := hp'.mem_iff (a := k.2)
          have h6 := hp'.mem_iff (a := a)
          have h7 := hp'.mem_iff (a := b)
          simp at h4 h5 h6 h7
          rcases h4 with e | e
          · rcases h5 with e' | e'
            · exact absurd (e.trans e'.symm) hk
            · left; rw [e, e']
          · rcases h5 with e' | e'
            · right; rw [e, e']
            · exact absurd (e.trans e'.symm) hk
        by_cases g1 : g = k.1
        · subst g1
          rw [if_pos (.inl rfl)]
          rcases this with rfl | rfl
          · simp only [List.foldl_cons, List.foldl_nil]; rw [push_other _ _ hk, push_same]
          · simp only [List.foldl_cons, List.foldl_nil]; rw [push_same, push_other _ _ hk]
        by_cases g2 : g = k.2
        · subst g2
          rw [if_pos (.inr rfl)]
          rcases this with rfl | rfl
          · simp only [List.foldl_cons, List.foldl_nil]; rw [push_same, push_other _ _ (Ne.symm hk)]
          · simp only [List.foldl_cons, List.foldl_nil]; rw [push_other _ _ (Ne.symm hk), push_same]
        rw [if_neg (by tauto)]
        rcases this with rfl | rfl
        · simp only [List.foldl_cons, List.foldl_nil]; rw [push_other _ _ g2, push_other _ _ g1]
        · simp only [List.foldl_cons, List.foldl_nil]; rw [push_other _ _ g1, push_other _ _ g2]
      have := (p.new hne (hs hin) (T.uniq hne hv hw) (T.lt hv) (T.lt hw) hno _ hF fs).2
      exact weak _ this
    · rename_i h2
      refine { p with every := fun a b h => p.every a b ?_ }
      rcases h with h | ⟨h, -⟩
      · exact h
      · exact absurd (hl.2 h) h2

end Mcut.CutEdges
