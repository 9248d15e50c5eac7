import Verif.Spec.C70
import Verif.Lemmas.C66

/-! Lemmas for C70. -/
namespace Mcut.Boundary
open Mcut.Hmesh Mcut.Registry Mcut.CutEdges
variable {P : Type}

/-- What every state of the stage satisfies as far as the mesh and the incoming halfedges are concerned. -/
structure Sound (d : P) (c : CutEdges.St P) (base : Nat) (m : Mesh P) (inc : Nat → List Nat) : Prop where
  reach : Reachable d m
  nV : m.nV = c.m0.nV
  vRem : m.vRem = []
  pos : m.pos = c.m0.pos
  nF : m.nF = 0
  eRem : m.eRem = []
  le : c.m0.nE ≤ m.nE
  old : ∀ h, h / 2 < c.m0.nE → m.hd h = c.m0.hd h
  incoming : ∀ v, base ≤ v → (inc v).Nodup ∧ ∀ h, h ∈ inc v ↔ LiveH m h ∧ m.target h = v
  noOthers : ∀ v, v < base → inc v = []

/-- The entries made for an edge from `v` to `w`. -/
def note (base : Nat) (inc : Nat → List Nat) (v w h : Nat) : Nat → List Nat :=
  fun x => inc x ++ ((if base ≤ w ∧ x = w then [h] else []) ++ (if base ≤ v ∧ x = v then [opposite h] else []))

theorem addEdge_sound {d : P} {c : CutEdges.St P} {base : Nat} {m : Mesh P} {inc : Nat → List Nat} (S : Sound d c base m inc) {v w : Nat} (hv : v < c.m0.nV)
    (hw : w < c.m0.nV) (hne : v ≠ w) : (m.addEdge v w).2 = 2 * m.nE ∧ EdgeAdded m (m.addEdge v w).1 v w m.nE ∧ (m.addEdge v w).1.nE = m.nE + 1 ∧
      Sound d c base (m.addEdge v w).1 (note base inc v w (2 * m.nE)) := by
  have W := reachable_wf S.reach
  obtain ⟨a1, E⟩ := addEdge_spec W v w hne
  have hnew : newEdge m = m.nE := by unfold newEdge; rw [S.eRem]; rfl
  rw [hnew] at a1 E
  have hr' : Reachable d (m.addEdge v w).1 := .step m (.addEdge v w) S.reach ⟨⟨by rw [S.nV]; exact hv, by rw [S.vRem]; simp⟩, ⟨by rw [S.nV]; exact hw, by rw [S.vRem]; simp⟩, hne⟩
  have eRem' : (m.addEdge v w).1.eRem = [] := by unfold Mesh.addEdge Mesh.allocHalfedge Mesh.allocEdge; grind [S.eRem]
  generalize (m.addEdge v w).1 = me at *
  have nE' : me.nE = m.nE + 1 := by
    have h2 : ∀ x, x < me.nE ↔ x < m.nE ∨ x = m.nE := by
      intro x
      have := E.live x
      unfold LiveE Live at this
      rw [eRem', S.eRem] at this
      simpa using this
    have h3 := (h2 m.nE).2 (.inr rfl)
    have h4 : ¬ m.nE + 1 < me.nE := fun h => by have := (h2 (m.nE + 1)).1 h; omega
    omega
  refine ⟨a1, E, nE', hr', by rw [E.nV]; exact S.nV, by rw [E.vRem]; exact S.vRem, by rw [E.pos]; exact S.pos, ?_, eRem', by have := S.le; omega, ?_, ?_, ?_⟩
  · rw [E.nF]; exact S.nF
  · intro h hh; rw [E.hd h (by have := S.le; omega)]; exact S.old h hh
  · intro x hx
    have W' := reachable_wf hr'
    have hin := S.incoming x hx
    have hmem : ∀ h, LiveH me h ∧ me.target h = x ↔ (LiveH m h ∧ m.target h = x) ∨ (h = 2 * m.nE ∧ w = x) ∨ (h = 2 * m.nE + 1 ∧ v = x) := by
      intro h
      rw [W'.liveH_iff, E.live, W.liveH_iff]
      unfold Mesh.target
      by_cases hh : h / 2 = m.nE
      · have hnl : ¬ LiveE m (h / 2) := by rw [hh]; exact E.fresh
        have : h = 2 * m.nE ∨ h = 2 * m.nE + 1 := by omega
        rcases this with rfl | rfl
        · rw [E.hd0]; simp only; constructor
          · rintro ⟨-, h⟩; exact .inr (.inl ⟨trivial, h⟩)
          · rintro (⟨h, -⟩ | ⟨-, h⟩ | ⟨h, -⟩)
            · exact absurd h hnl
            · exact ⟨.inr hh, h⟩
            · omega
        · rw [E.hd1]; simp only; constructor
          · rintro ⟨-, h⟩; exact .inr (.inr ⟨trivial, h⟩)
          · rintro (⟨h, -⟩ | ⟨h, -⟩ | ⟨-, h⟩)
            · exact absurd h hnl
            · omega
            · exact ⟨.inr hh, h⟩
      · rw [E.hd h hh]
        constructor
        · rintro ⟨h1 | h1, h2⟩
          · exact .inl ⟨h1, h2⟩
          · exact absurd h1 hh
        · rintro (⟨h1, h2⟩ | ⟨h1, -⟩ | ⟨h1, -⟩)
          · exact ⟨.inl h1, h2⟩
          · omega
          · omega
    have hfr : ∀ h ∈ inc x, h / 2 ≠ m.nE := fun h hh he => E.fresh (by rw [← he]; exact (W.liveH_iff h).1 ((hin.2 h).1 hh).1)
    have ho : opposite (2 * m.nE) = 2 * m.nE + 1 := opposite_even _
    unfold note
    rw [ho]
    constructor
    · by_cases x1 : x = w
      · subst x1
        rw [if_pos ⟨hx, rfl⟩, if_neg (fun h => hne h.2.symm), List.append_nil, List.nodup_append]
        exact ⟨hin.1, by simp, fun a ha b hb hab => by simp at hb; subst hb hab; exact hfr _ ha (by omega)⟩
      · rw [if_neg (fun h => x1 h.2), List.nil_append]
        by_cases x2 : x = v
        · subst x2
          rw [if_pos ⟨hx, rfl⟩, List.nodup_append]
          exact ⟨hin.1, by simp, fun a ha b hb hab => by simp at hb; subst hb hab; exact hfr _ ha (by omega)⟩
        · rw [if_neg (fun h => x2 h.2), List.append_nil]; exact hin.1
    · intro h
      rw [hmem, ← hin.2 h]
      simp only [List.mem_append]
      by_cases x1 : x = w <;> by_cases x2 : x = v
      · omega
      · subst x1; rw [if_pos ⟨hx, rfl⟩, if_neg (fun h => x2 h.2)]
        simp only [List.mem_singleton, List.not_mem_nil, or_false, and_true]
        constructor
        · rintro (h | h)
          · exact .inl h
          · exact .inr (.inl h)
        · rintro (h | h | ⟨-, h⟩)
          · exact .inl h
          · exact .inr h
          · exact absurd h.symm x2
      · subst x2; rw [if_neg (fun h => x1 h.2), if_pos ⟨hx, rfl⟩]
        simp only [List.mem_singleton, List.not_mem_nil, false_or, and_true]
        constructor
        · rintro (h | h)
          · exact .inl h
          · exact .inr (.inr h)
        · rintro (h | ⟨-, h⟩ | h)
          · exact .inl h
          · exact absurd h.symm x1
          · exact .inr h
      · rw [if_neg (fun h => x1 h.2), if_neg (fun h => x2 h.2)]
        simp only [List.not_mem_nil, or_false]
        constructor
        · exact .inl
        · rintro (h | ⟨-, h⟩ | ⟨-, h⟩)
          · exact h
          · exact absurd h.symm x1
          · exact absurd h.symm x2
  · intro x hx
    unfold note
    rw [S.noOthers x hx, if_neg (by omega), if_neg (by omega)]; rfl

theorem joins_new {m m' : Mesh P} {v w n : Nat} (E : EdgeAdded m m' v w n) : Joins m' n v w := by
  unfold Joins Mesh.edgeVertex Mesh.target
  rw [show n * 2 + 0 = 2 * n by omega, show n * 2 + 1 = 2 * n + 1 by omega, E.hd0, E.hd1]
  exact .inr ⟨rfl, rfl⟩

theorem joins_old {m m' : Mesh P} {v w n e a b : Nat} (E : EdgeAdded m m' v w n) (he : e ≠ n) : Joins m' e a b ↔ Joins m e a b := by
  unfold Joins Mesh.edgeVertex Mesh.target
  rw [E.hd (e * 2 + 0) (by omega), E.hd (e * 2 + 1) (by omega)]

theorem joins_same {m m' : Mesh P} {e a b : Nat} (h : ∀ x, x / 2 = e → m'.hd x = m.hd x) : Joins m' e a b ↔ Joins m e a b := by
  unfold Joins Mesh.edgeVertex Mesh.target
  rw [h (e * 2 + 0) (by omega), h (e * 2 + 1) (by omega)]

theorem leads_same {m m' : Mesh P} {vs es : List Nat} (h : ∀ e ∈ es, ∀ x, x / 2 = e → m'.hd x = m.hd x) (hl : Leads m vs es) : Leads m' vs es :=
  ⟨hl.1, fun i e v w he hv hw => (joins_same (h e (List.mem_of_getElem? he))).2 (hl.2 i e v w he hv hw)⟩

/-! ### One divided edge -/

/-- The invariant for one edge of "ps" whose pieces `es` lead through `vs` so far. -/
theorem leads_cons {m : Mesh P} {v w e : Nat} {vs es : List Nat} (hj : Joins m e v w) (hl : Leads m (w :: vs) es) : Leads m (v :: w :: vs) (e :: es) := by
  refine ⟨by have := hl.1; simp only [List.length_cons] at this ⊢; omega, ?_⟩
  intro i e' v' w' h1 h2 h3
  cases i with
  | zero =>
    simp only [List.getElem?_cons_zero, Option.some.injEq] at h1 h2
    simp only [Nat.zero_add, List.getElem?_cons_succ, List.getElem?_cons_zero, Option.some.injEq] at h3
    subst h1 h2 h3; exact hj
  | succ i =>
    simp only [List.getElem?_cons_succ] at h1 h2 h3
    exact hl.2 i e' v' w' h1 h2 h3

/-- Pushing the edges of a path for the faces `fs`. -/
theorem foldl_push_perm (fs : List Nat) (n : Nat) : ∀ (M : Nat → List Nat) (f : Nat),
    fs.foldl (fun M f => push M f n) M f = M f ++ List.replicate (fs.count f) n := by
  induction fs with
  | nil => intro M f; simp
  | cons a fs ih =>
    intro M f
    rw [List.foldl_cons, ih]
    by_cases h : f = a
    · subst h
      rw [push_same, List.count_cons_self, List.replicate_succ, List.append_assoc]; rfl
    · rw [push_other _ _ h, List.count_cons_of_ne (Ne.symm h)]

/-- The entries of a face for pieces `es` of an edge with faces `fs`. -/
def shares (fs es : List Nat) (f : Nat) : List Nat := (fs.filter (· == f)).flatMap (fun _ => es)

theorem shares_cons_perm (fs : List Nat) (n : Nat) (es : List Nat) (f : Nat) : (shares fs (n :: es) f).Perm (List.replicate (fs.count f) n ++ shares fs es f) := by
  unfold shares
  induction fs with
  | nil => simp
  | cons a fs ih =>
    by_cases h : a = f
    · subst h
      simp only [List.filter_cons, beq_self_eq_true, if_true, List.flatMap_cons, List.count_cons_self, List.replicate_succ, List.cons_append]
      refine List.Perm.cons _ ?_
      refine ((List.Perm.append_left es ih).trans ?_)
      rw [← List.append_assoc, ← List.append_assoc]
      exact List.Perm.append_right _ List.perm_append_comm
    · have : (a == f) = false := by simpa using h
      simp only [List.filter_cons, this, Bool.false_eq_true, if_false, List.count_cons_of_ne h]
      exact ih

theorem shares_nil (fs : List Nat) (f : Nat) : shares fs [] f = [] := by unfold shares; simp

theorem chain_spec {d : P} {c : CutEdges.St P} {base : Nat} (ps : Mesh P) (e : Nat) : ∀ (rest : List Nat) (v w : Nat) (first : Bool) (st : St P),
    Sound d c base st.m0 st.incoming → (v :: w :: rest).Nodup → (∀ x ∈ v :: w :: rest, x < c.m0.nV) →
    (base ≤ v ↔ first = false) → (∀ x ∈ (w :: rest).dropLast, base ≤ x) → ((w :: rest).getLast (by simp) < base) → (first = true → rest ≠ []) →
    ∃ es, Sound d c base (chain ps e first (v :: w :: rest) st).m0 (chain ps e first (v :: w :: rest) st).incoming ∧
      es = List.range' st.m0.nE (rest.length + 1) ∧ (chain ps e first (v :: w :: rest) st).m0.nE = st.m0.nE + (rest.length + 1) ∧
      (∀ h, h / 2 < st.m0.nE → (chain ps e first (v :: w :: rest) st).m0.hd h = st.m0.hd h) ∧
      Leads (chain ps e first (v :: w :: rest) st).m0 (v :: w :: rest) es ∧
      (∀ x, (chain ps e first (v :: w :: rest) st).chains x = if x = e then st.chains x ++ es else st.chains x) ∧
      (chain ps e first (v :: w :: rest) st).plain = st.plain ∧
      (∀ f, ((chain ps e first (v :: w :: rest) st).faceEdges f).Perm (st.faceEdges f ++ shares (facesOf ps e) es f)) := by
  intro rest
  induction rest with
  | nil =>
    intro v w first st S hnd hlt hfirst hmid hlast hne
    have hf : first = false := by cases first with
      | false => rfl
      | true => exact absurd rfl (hne rfl)
    subst hf
    have hvw : v ≠ w := by simp at hnd; exact hnd
    obtain ⟨a1, E, nE', S'⟩ := addEdge_sound S (hlt v (by simp)) (hlt w (by simp)) hvw
    have hb : base ≤ v := hfirst.2 rfl
    have hw : w < base := by simpa using hlast
    have hrun : chain ps e false [v, w] st = ⟨(st.m0.addEdge v w).1, (facesOf ps e).foldl (fun M f => push M f (edgeOf (st.m0.addEdge v w).2)) st.faceEdges,
        push st.incoming v (opposite (st.m0.addEdge v w).2), push st.chains e (edgeOf (st.m0.addEdge v w).2), st.plain⟩ := by
      simp only [chain, List.isEmpty_nil, if_true, Bool.false_eq_true, if_false]
    rw [hrun, a1]
    have he : edgeOf (2 * st.m0.nE) = st.m0.nE := by unfold edgeOf; omega
    rw [he]
    refine ⟨[st.m0.nE], ?_, by simp [List.range'], by simpa using nE', fun h hh => E.hd h (by omega), leads_cons (joins_new E) ⟨by simp, fun i e v w h => by simp at h⟩, ?_, rfl, ?_⟩
    · have : push st.incoming v (opposite (2 * st.m0.nE)) = note base st.incoming v w (2 * st.m0.nE) := by
        funext x
        unfold push note
        rw [if_neg (show ¬ (base ≤ w ∧ x = w) by omega)]
        by_cases hx : x = v
        · subst hx; rw [if_pos rfl, if_pos ⟨hb, rfl⟩]; rfl
        · rw [if_neg hx, if_neg (fun h => hx h.2)]; simp
      rw [this]; exact S'
    · intro x; unfold push; by_cases hx : x = e
      · subst hx; simp
      · simp [hx]
    · intro f
      simp only
      rw [foldl_push_perm]
      refine List.Perm.append_left _ ?_
      exact ((shares_cons_perm (facesOf ps e) st.m0.nE [] f).trans (by rw [shares_nil, List.append_nil])).symm
  | cons y rest ih =>
    intro v w first st S hnd hlt hfirst hmid hlast hne
    have hvw : v ≠ w := by intro h; subst h; simp at hnd
    obtain ⟨a1, E, nE', S'⟩ := addEdge_sound S (hlt v (by simp)) (hlt w (by simp)) hvw
    have hbw : base ≤ w := hmid w (by simp)
    have he : edgeOf (2 * st.m0.nE) = st.m0.nE := by unfold edgeOf; omega
    generalize hst1 : (⟨(st.m0.addEdge v w).1, (facesOf ps e).foldl (fun M f => push M f (edgeOf (st.m0.addEdge v w).2)) st.faceEdges,
        note base st.incoming v w (2 * st.m0.nE), push st.chains e (edgeOf (st.m0.addEdge v w).2), st.plain⟩ : St P) = st1
    have hrun : chain ps e first (v :: w :: y :: rest) st = chain ps e false (w :: y :: rest) st1 := by
      have hinc : (if first = true then push st.incoming w (st.m0.addEdge v w).2 else
          if (y :: rest).isEmpty = true then push st.incoming v (opposite (st.m0.addEdge v w).2)
          else push (push st.incoming w (st.m0.addEdge v w).2) v (opposite (st.m0.addEdge v w).2)) = note base st.incoming v w (2 * st.m0.nE) := by
        rw [a1]
        funext x
        cases first with
        | true =>
          have hb : ¬ base ≤ v := fun h => by have := hfirst.1 h; simp at this
          simp only [if_true, push, note]
          by_cases hx : x = w
          · subst hx; simp [hbw, hb]
          · simp [hx, hb]
        | false =>
          have hb : base ≤ v := hfirst.2 rfl
          simp only [Bool.false_eq_true, if_false, List.isEmpty_cons, push, note]
          by_cases hx : x = w
          · subst hx; simp [hbw, hvw.symm]
          · by_cases hx' : x = v
            · subst hx'; simp [hx, hb]
            · simp [hx, hx']
      rw [← hst1, ← hinc]
      rfl
    rw [hrun]
    have hm1 : st1.m0 = (st.m0.addEdge v w).1 := by rw [← hst1]
    have hS1 : Sound d c base st1.m0 st1.incoming := by rw [← hst1]; exact S'
    have hn1 : st1.m0.nE = st.m0.nE + 1 := by rw [hm1]; exact nE'
    obtain ⟨es, r1, r2, r3, r4, r5, r6, r7, r8⟩ := ih w y false st1 hS1 (by simp only [List.nodup_cons] at hnd ⊢; exact hnd.2)
      (fun x hx => hlt x (List.mem_cons_of_mem _ hx)) ⟨fun _ => rfl, fun _ => hbw⟩ (fun x hx => hmid x (by simp only [List.dropLast_cons_cons, List.mem_cons]; exact .inr hx))
      (by simpa using hlast) (by simp)
    refine ⟨st.m0.nE :: es, r1, ?_, ?_, ?_, leads_cons ?_ r5, ?_, ?_, ?_⟩
    · rw [r2, hn1]; rfl
    · rw [r3, hn1]; simp only [List.length_cons]; omega
    · intro h hh
      rw [r4 h (by omega), hm1]
      exact E.hd h (by omega)
    · have h1 := joins_new E
      rw [← hm1] at h1
      exact (joins_same (fun x hx => r4 x (by omega))).2 h1
    · intro x
      rw [r6 x]
      have : st1.chains = push st.chains e st.m0.nE := by rw [← hst1]; simp only [a1, he]
      rw [this]
      unfold push
      by_cases hx : x = e
      · subst hx; simp
      · simp [hx]
    · rw [r7, ← hst1]
    · intro f
      refine (r8 f).trans ?_
      have : st1.faceEdges = (facesOf ps e).foldl (fun M f => push M f st.m0.nE) st.faceEdges := by rw [← hst1]; simp only [a1, he]
      rw [this, foldl_push_perm, List.append_assoc]
      exact List.Perm.append_left _ (shares_cons_perm _ _ _ _).symm

end Mcut.Boundary
