import Verif.Spec.C31

/-! Helper lemmas for `Props/C31.lean`. -/
namespace Mcut.Hmesh
variable {P : Type}

/-- The directed edge of the polygon is not occupied. -/
def EdgeFree (m : Mesh P) (p : Nat × Nat) : Prop := ∀ h, m.halfedge p.1 p.2 true = some h → (m.hd h).f = none

theorem mark_halfedge (m : Mesh P) (h new s t : Nat) : (m.mark h new).halfedge s t true = m.halfedge s t true := by
  have hs : ∀ i, (m.mark h new).source i = m.source i := by
    intro i
    unfold Mesh.source
    rw [(mark_hd m h new i).2.1]
    cases (m.hd i).o with
    | none => rfl
    | some o => simp [(mark_hd m h new o).1]
  have ht : ∀ i, (m.mark h new).target i = m.target i := fun i => (mark_hd m h new i).1
  unfold Mesh.halfedge
  simp only [Bool.true_or, if_true, hs, ht]
  rfl

theorem find_congr (p q : Nat → Bool) : ∀ l : List Nat, (∀ x ∈ l, p x = q x) → l.find? p = l.find? q := by
  intro l
  induction l with
  | nil => intro _; rfl
  | cons a l ih =>
    intro h
    rw [List.find?_cons, List.find?_cons, h a (by simp), ih (fun x hx => h x (by simp [hx]))]

theorem addEdge_halfedge {m : Mesh P} {new : Nat} {acc : List Nat} (I : Inv m new acc) {m' : Mesh P} {v0 v1 e : Nat} (E : EdgeAdded m m' v0 v1 e)
    (I' : Inv m' new acc) (s t : Nat) (hst : s ≠ t) (h : Nat) (hl : m.halfedge s t true = some h) : m'.halfedge s t true = some h := by
  have hold : ∀ v, ∀ x ∈ m.vh v, LiveH m x := fun v x hx => ((I.vh_mem v x).1 hx).1
  have hnew : ∀ v, ∀ x ∈ m.vh v, x / 2 ≠ e := fun v x hx he => E.fresh (he ▸ (I.liveH_iff x).1 (hold v x hx))
  unfold Mesh.halfedge at hl ⊢
  simp only at hl ⊢
  cases hf : (m.vh s).find? (fun i => ((m.vh t).map edgeOf).contains (edgeOf i)) with
  | none => rw [hf] at hl; simp at hl
  | some i =>
    have hi := List.mem_of_find?_eq_some hf
    have hf' : (m'.vh s).find? (fun i => ((m'.vh t).map edgeOf).contains (edgeOf i)) = some i := by
      have congr : ∀ x ∈ m.vh s, ((m'.vh t).map edgeOf).contains (edgeOf x) = ((m.vh t).map edgeOf).contains (edgeOf x) := by
        intro x hx
        rw [E.vh t]
        simp only [List.contains_eq_mem, List.map_append, List.mem_append, decide_eq_decide]
        have n1 : edgeOf x ∉ (if t = v0 then [2 * e + 1] else []).map edgeOf := by
          split
          · simp only [List.map_cons, List.map_nil, List.mem_singleton, edgeOf]
            have := hnew s x hx; omega
          · simp
        have n2 : edgeOf x ∉ (if t = v1 then [2 * e] else []).map edgeOf := by
          split
          · simp only [List.map_cons, List.map_nil, List.mem_singleton, edgeOf]
            have := hnew s x hx; omega
          · simp
        simp only [n1, n2, or_false]
      have : (m.vh s).find? (fun i => ((m'.vh t).map edgeOf).contains (edgeOf i)) = some i := by
        rw [← hf]
        exact find_congr _ _ _ congr
      rw [E.vh s, List.append_assoc, List.find?_append, this]; rfl
    rw [hf] at hl
    rw [hf']
    have a : LiveH m i := hold s i hi
    have b := I.opp_live a
    have hsrc : m'.source i = m.source i := by
      rw [I.source a, I'.source ((E.liveH I i).2 (Or.inl a)), E.old I b]
    have htgt : m'.target i = m.target i := by unfold Mesh.target; rw [E.old I a]
    simp only [Bool.true_or, if_true, hsrc, htgt] at hl ⊢
    exact hl

theorem free_step {m : Mesh P} {new : Nat} {acc : List Nat} (I : Inv m new acc) (v0 v1 : Nat) (h0 : LiveV m v0) (h1 : LiveV m v1)
    (hne : v0 ≠ v1) (q : Nat × Nat) (hq : q.1 ≠ q.2) (hqp : q ≠ (v0, v1)) :
    EdgeFree ((m.getOrAdd v0 v1).1.mark (m.getOrAdd v0 v1).2 new) q ↔ EdgeFree m q := by
  obtain ⟨I1, l1, t1, s1, F1, o1, -⟩ := getOrAdd_spec I v0 v1 h0 h1 hne
  unfold EdgeFree
  rw [mark_halfedge]
  have nomark : ∀ h, (m.getOrAdd v0 v1).1.halfedge q.1 q.2 true = some h →
      (((m.getOrAdd v0 v1).1.mark (m.getOrAdd v0 v1).2 new).hd h).f = ((m.getOrAdd v0 v1).1.hd h).f := by
    intro h hh
    have := halfedge_some I1 q.1 q.2 hq h hh
    rw [mark_f, if_neg]
    rintro rfl
    apply hqp
    rw [t1] at this; rw [s1] at this
    exact Prod.ext this.2.1.symm this.2.2.symm
  -- lookups
  have keep : ∀ h, m.halfedge q.1 q.2 true = some h → (m.getOrAdd v0 v1).1.halfedge q.1 q.2 true = some h := by
    intro h hh
    unfold Mesh.getOrAdd
    cases hl : m.halfedge v0 v1 true with
    | some x => exact hh
    | none =>
      obtain ⟨e1, E⟩ := addEdge_spec I v0 v1 hne
      exact addEdge_halfedge I E (E.inv I h0 h1 hne) q.1 q.2 hq h hh
  constructor
  · intro hall h hh
    have k := keep h hh
    have := hall h k
    rw [nomark h k] at this
    have hlive := (halfedge_some I q.1 q.2 hq h hh).1
    rw [o1 h hlive] at this
    exact this
  · intro hall h hh
    rw [nomark h hh]
    cases hm : m.halfedge q.1 q.2 true with
    | some h' =>
      have k := keep h' hm
      rw [hh] at k
      simp only [Option.some.injEq] at k
      subst k
      rw [o1 h (halfedge_some I q.1 q.2 hq h hm).1]
      exact hall h hm
    | none =>
      have hnone := (halfedge_none I q.1 q.2 hq).1 hm
      have hs := halfedge_some I1 q.1 q.2 hq h hh
      have hdead : ¬ LiveH m h := by
        intro hl
        apply hnone h hl
        · rw [I.source hl, ← o1 _ (I.opp_live hl), hs.2.1]
        · unfold Mesh.target; rw [← o1 h hl]; exact hs.2.2
      -- a halfedge that was not live before belongs to the new edge
      revert hh hs
      unfold Mesh.getOrAdd
      cases hl : m.halfedge v0 v1 true with
      | some x => intro hh _; rw [hm] at hh; simp at hh
      | none =>
        intro hh hs
        obtain ⟨e1, E⟩ := addEdge_spec I v0 v1 hne
        have hlive : LiveH (m.addEdge v0 v1).1 h := hs.1
        rw [E.liveH I] at hlive
        rcases hlive with hlive | hlive
        · exact absurd hlive hdead
        · show ((m.addEdge v0 v1).1.hd h).f = none
          rcases div_eq_cases h _ hlive with rfl | rfl
          · rw [E.hd0]
          · rw [E.hd1]

theorem loop_accepts (new : Nat) (L : List (Nat × Nat)) : ∀ (m : Mesh P) (acc : List Nat), Inv m new acc → acc.Nodup →
    (∀ p ∈ L, LiveV m p.1 ∧ LiveV m p.2 ∧ p.1 ≠ p.2) → L.Nodup →
    ((Mesh.addFaceLoop new m acc L).2.2 = true ↔ ∀ p ∈ L, EdgeFree m p) := by
  induction L with
  | nil => intro m acc _ _ _ _; simp [Mesh.addFaceLoop]
  | cons q L ih =>
    obtain ⟨v0, v1⟩ := q
    intro m acc I hnd hL hLnd
    have hq := hL (v0, v1) (by simp)
    rw [List.nodup_cons] at hLnd
    obtain ⟨I1, l1, t1, s1, F1, o1, alt⟩ := getOrAdd_spec I v0 v1 hq.1 hq.2.1 hq.2.2
    have key : ((m.getOrAdd v0 v1).1.hd (m.getOrAdd v0 v1).2).f = none ↔ EdgeFree m (v0, v1) := by
      unfold EdgeFree
      unfold Mesh.getOrAdd
      cases hl : m.halfedge v0 v1 true with
      | some x => simp
      | none =>
        obtain ⟨e1, E⟩ := addEdge_spec I v0 v1 hq.2.2
        have : ((m.addEdge v0 v1).1.hd (m.addEdge v0 v1).2).f = none := by rw [e1, E.hd0]
        simp [this]
    unfold Mesh.addFaceLoop
    simp only
    by_cases hc : ((m.getOrAdd v0 v1).1.face (m.getOrAdd v0 v1).2).isSome = true
    · rw [if_pos hc]
      have hns : ((m.getOrAdd v0 v1).1.hd (m.getOrAdd v0 v1).2).f ≠ none := by
        intro hn; unfold Mesh.face at hc; rw [hn] at hc; simp at hc
      simp only [Bool.false_eq_true, false_iff]
      intro hall
      exact hns (key.2 (hall (v0, v1) (by simp)))
    · rw [if_neg hc]
      have hfn : ((m.getOrAdd v0 v1).1.hd (m.getOrAdd v0 v1).2).f = none := by
        simpa [Mesh.face] using hc
      have I2 := mark_inv I1 l1 hfn
      have hnot : (m.getOrAdd v0 v1).2 ∉ acc := by
        intro hm
        have := (I1.acc_ok _ hm).2
        rw [hfn] at this; simp at this
      have hnd2 : (acc ++ [(m.getOrAdd v0 v1).2]).Nodup := by
        rw [List.nodup_append]
        refine ⟨hnd, by simp, ?_⟩
        intro a ha b hb
        rw [List.mem_singleton] at hb
        rintro rfl; exact hnot (hb ▸ ha)
      have F2 := F1.trans (mark_frame (m.getOrAdd v0 v1).1 new acc (m.getOrAdd v0 v1).2 hfn) (by intro x hx; simp [hx])
      have R := ih ((m.getOrAdd v0 v1).1.mark (m.getOrAdd v0 v1).2 new) (acc ++ [(m.getOrAdd v0 v1).2]) I2 hnd2 (by
        intro p hp
        have := hL p (by simp [hp])
        unfold LiveV at *
        rw [F2.nV, F2.vRem]; exact this) hLnd.2
      change (Mesh.addFaceLoop new ((m.getOrAdd v0 v1).1.mark (m.getOrAdd v0 v1).2 new) _ L).2.2 = true ↔ _
      rw [R]
      constructor
      · intro hall p hp
        rcases List.mem_cons.1 hp with rfl | hp
        · exact key.1 hfn
        · have hpq : p ≠ (v0, v1) := by rintro rfl; exact hLnd.1 hp
          exact (free_step I v0 v1 hq.1 hq.2.1 hq.2.2 p (hL p (by simp [hp])).2.2 hpq).1 (hall p hp)
      · intro hall p hp
        have hpq : p ≠ (v0, v1) := by rintro rfl; exact hLnd.1 hp
        exact (free_step I v0 v1 hq.1 hq.2.1 hq.2.2 p (hL p (by simp [hp])).2.2 hpq).2 (hall p (by simp [hp]))

theorem loopMesh_halfedge (m : Mesh P) (s t : Nat) : (loopMesh m).halfedge s t true = m.halfedge s t true := rfl

theorem isInsertable_iff (m : Mesh P) (vi : List Nat) : m.isInsertable vi = true ↔ ∀ p ∈ cycPairs vi, EdgeFree m p := by
  unfold Mesh.isInsertable EdgeFree
  rw [List.all_eq_true]
  apply forall_congr'; intro p
  apply forall_congr'; intro _
  rw [halfedge_nonstrict]
  cases m.halfedge p.1 p.2 true with
  | none => simp
  | some h =>
    simp only [Option.bind_some, Option.some.injEq, forall_eq']
    cases hf : (m.hd h).f <;> simp [Mesh.face, hf]

end Mcut.Hmesh
