import Verif.Lemmas.C61

/-! Lemmas for C61: the breadth-first search. -/
namespace Mcut.Pairs
open Mcut.Hmesh Mcut.Box Mcut.Sched
variable {P : Type} {d : P} {ps : Mesh P} {pairs : FaceMap}

/-- The face across an edge as the search computes it is the face of the opposite halfedge. -/
theorem across_eq (hr : Reachable d ps) {f : Nat} (hf : LiveF ps f) {i h : Nat} (hi : (ps.fh f)[i]? = some h) :
    (if (ps.facesAroundFace f).length ≠ (ps.fh f).length then ps.face (opposite h) else (ps.facesAroundFace f)[i]?) = ps.face (opposite h) := by
  have W := reachable_wf hr
  have hac : ∀ h ∈ ps.fh f, ps.faceAcross h = ps.face (opposite h) := by
    intro h hh
    have hl := ((C29_consistent hr).face_list f hf).2.2 h hh
    unfold Mesh.faceAcross Mesh.face
    rw [(W.half h hl.1).1]
  split_ifs with hb
  · rfl
  · have hb : (ps.facesAroundFace f).length = (ps.fh f).length := by
      by_contra hc; exact hb hc
    unfold Mesh.facesAroundFace at hb ⊢
    have key : ∀ (l : List Nat) (i : Nat), (l.filterMap ps.faceAcross).length = l.length → (l.filterMap ps.faceAcross)[i]? = (l[i]?).bind ps.faceAcross := by
      intro l
      induction l with
      | nil => intro i _; simp
      | cons a l ih =>
        intro i hl
        rw [List.filterMap_cons] at hl ⊢
        cases ha : ps.faceAcross a with
        | none =>
          rw [ha] at hl; simp only [List.length_cons] at hl
          have := List.length_filterMap_le ps.faceAcross l
          omega
        | some g =>
          rw [ha] at hl; simp only [List.length_cons] at hl
          cases i with
          | zero => simp [ha]
          | succ i => simp only [List.getElem?_cons_succ]; exact ih i (by omega)
    rw [key _ _ hb, hi]; exact hac h (List.mem_of_getElem? hi)

/-- Invariant while one face is processed: `unv` are the faces not yet taken from the queue. -/
structure HInv (unv : List Nat) (T : Nat → Prop) (D : Nat → Nat → Prop) (s : Bfs) : Prop where
  unvis : s.unvisited = unv
  cand : Cand T D s.M
  vis : ∀ e, s.vis e = true ↔ T e
  sub : ∀ q ∈ s.queue, q ∈ unv
  nd : s.queue.Nodup
  enq : ∀ q ∈ s.queue, s.enq q = true

theorem HInv.step (hr : Reachable d ps) {f i h : Nat} (hf : LiveF ps f) (hi : (ps.fh f)[i]? = some h) (hs : opposite h ∉ ps.fh f) {unv : List Nat}
    {T : Nat → Prop} {D : Nat → Nat → Prop} {s : Bfs} (H : HInv unv T D s)
    (hT : ∀ kv ∈ pairs, kv.1 ∉ unv → kv.1 ≠ f → ∀ e, OnFace ps e kv.1 → T e) {L : List Nat} (hL : L.Nodup) :
    HInv unv (fun e => T e ∨ e = edgeOf h) (fun e g => D e g ∨ (e = edgeOf h ∧ g ∈ L)) (visitHalfedge ps pairs f (sortIds L) s (i, h)) := by
  have hmem := List.mem_of_getElem? hi
  obtain ⟨hlive, hface⟩ := ((C29_consistent hr).face_list f hf).2.2 h hmem
  have hnL : (sortIds L).Pairwise (· < ·) := sortIds_sorted hL
  unfold visitHalfedge
  simp only
  rw [across_eq hr hf hi]
  by_cases hv : s.vis (edgeOf h) = false
  · rw [if_pos hv]
    have hnT : ¬ T (edgeOf h) := by rw [← H.vis]; simp [hv]
    have hnone : s.M (edgeOf h) = none := by
      have := (H.cand.keys (edgeOf h)).not.2 hnT
      simpa using this
    rw [hnone]
    simp only [Option.isSome_none, Bool.false_eq_true, if_false]
    have c := H.cand.set (edgeOf h) L (sortIds L) hnL (fun g => by rw [mem_sortIds]; have := H.cand.noFaces hnone g; tauto)
    have v : ∀ e, upd s.vis (edgeOf h) true e = true ↔ (T e ∨ e = edgeOf h) := by
      intro e; rw [upd_apply]; split_ifs with he
      · simp [he]
      · rw [H.vis]; simp [he]
    cases ho : ps.face (opposite h) with
    | none => exact ⟨H.unvis, c, v, H.sub, H.nd, H.enq⟩
    | some g =>
      simp only
      split_ifs with hc
      · obtain ⟨hq, hk⟩ := hc
        simp only [List.contains_eq_mem, decide_eq_true_eq, List.mem_filter, List.any_eq_true, beq_iff_eq] at hk
        obtain ⟨-, kv, hkv, rfl⟩ := hk
        have hopl := ((C29_consistent hr).opp h hlive)
        have hin := ((C29_consistent hr).chain _ _ hopl.1 ho).2.1
        have hu : kv.1 ∈ unv := by
          by_contra hu
          apply hnT
          refine hT kv hkv hu (fun e => ?_) _ ⟨opposite h, hin, hopl.2.2.2.2.1⟩
          rw [e] at hin; exact hs hin
        have hnq : kv.1 ∉ s.queue := fun hx => by
          have := H.enq _ hx; rw [this] at hq; simp at hq
        refine ⟨H.unvis, c, v, fun q hq' => ?_, ?_, fun q hq' => ?_⟩
        · rcases List.mem_append.1 hq' with h' | h'
          · exact H.sub q h'
          · simp only [List.mem_singleton] at h'; rw [h']; exact hu
        · rw [List.nodup_append]
          refine ⟨H.nd, by simp, fun a ha b hb => ?_⟩
          simp only [List.mem_singleton] at hb; subst hb; rintro rfl; exact hnq ha
        · show upd s.enq kv.1 true q = true
          rw [upd_apply]; split_ifs with he
          · rfl
          · rcases List.mem_append.1 hq' with h' | h'
            · exact H.enq q h'
            · simp only [List.mem_singleton] at h'; exact absurd h' he
      · exact ⟨H.unvis, c, v, H.sub, H.nd, H.enq⟩
  · rw [if_neg hv]
    have hv : s.vis (edgeOf h) = true := by simpa using hv
    have hTe := (H.vis _).1 hv
    obtain ⟨l, hl⟩ := Option.isSome_iff_exists.1 ((H.cand.keys (edgeOf h)).2 hTe)
    obtain ⟨h1, h2⟩ := insertAll_spec (sortIds L) (H.cand.sorted _ _ hl)
    refine ⟨H.unvis, ?_, fun e => ?_, H.sub, H.nd, H.enq⟩
    · rw [hl, Option.getD_some]
      exact H.cand.set (edgeOf h) L _ h1 (fun g => by rw [h2, H.cand.faces _ _ hl, mem_sortIds]; tauto)
    · show s.vis e = true ↔ _
      rw [H.vis]; constructor
      · exact .inl
      · rintro (h' | rfl)
        · exact h'
        · exact hTe

theorem HInv.steps (hr : Reachable d ps) {f : Nat} (hf : LiveF ps f) (hs : ∀ h ∈ ps.fh f, opposite h ∉ ps.fh f) {unv : List Nat} {L : List Nat} (hL : L.Nodup)
    (hh : List (Nat × Nat)) : (∀ p ∈ hh, (ps.fh f)[p.1]? = some p.2) → ∀ {T : Nat → Prop} {D : Nat → Nat → Prop} {s : Bfs}, HInv unv T D s →
    (∀ kv ∈ pairs, kv.1 ∉ unv → kv.1 ≠ f → ∀ e, OnFace ps e kv.1 → T e) →
    HInv unv (fun e => T e ∨ ∃ p ∈ hh, edgeOf p.2 = e) (fun e g => D e g ∨ ((∃ p ∈ hh, edgeOf p.2 = e) ∧ g ∈ L))
      (hh.foldl (visitHalfedge ps pairs f (sortIds L)) s) := by
  induction hh with
  | nil =>
    intro _ T D s H _
    have e1 : (fun e => T e ∨ ∃ p ∈ ([] : List (Nat × Nat)), edgeOf p.2 = e) = T := by funext e; simp
    have e2 : (fun e g => D e g ∨ ((∃ p ∈ ([] : List (Nat × Nat)), edgeOf p.2 = e) ∧ g ∈ L)) = D := by funext e g; simp
    rw [e1, e2]; exact H
  | cons p hh ih =>
    intro hp T D s H hT
    have h1 := hp p (by simp)
    have := ih (fun q hq => hp q (by simp [hq])) (H.step hr hf h1 (hs _ (List.mem_of_getElem? h1)) hT hL) (fun kv a b c e he => .inl (hT kv a b c e he))
    have e1 : (fun e => (T e ∨ e = edgeOf p.2) ∨ ∃ p ∈ hh, edgeOf p.2 = e) = (fun e => T e ∨ ∃ q ∈ p :: hh, edgeOf q.2 = e) := by
      funext e; simp only [List.mem_cons, exists_eq_or_imp, eq_iff_iff]; constructor <;> grind
    have e2 : (fun e g => (D e g ∨ (e = edgeOf p.2 ∧ g ∈ L)) ∨ ((∃ p ∈ hh, edgeOf p.2 = e) ∧ g ∈ L)) =
        (fun e g => D e g ∨ ((∃ q ∈ p :: hh, edgeOf q.2 = e) ∧ g ∈ L)) := by
      funext e g; simp only [List.mem_cons, exists_eq_or_imp, eq_iff_iff]; constructor <;> grind
    rw [e1, e2] at this
    exact this

/-- The entries whose face has been taken from the queue. -/
def doneOf (pairs : FaceMap) (unv : List Nat) : FaceMap := pairs.filter (fun kv => decide (kv.1 ∉ unv))

theorem lower_bound_mem {l : List Nat} (hl : l.Pairwise (· < ·)) {x : Nat} (hx : x ∈ l) :
    (l.takeWhile (fun y => decide (y < x))).length ≠ l.length ∧
    (l.eraseIdx (l.takeWhile (fun y => decide (y < x))).length) = l.filter (fun y => decide (y ≠ x)) := by
  induction l with
  | nil => simp at hx
  | cons a l ih =>
    have ha := (List.pairwise_cons.1 hl).1
    by_cases hlt : a < x
    · have hx' : x ∈ l := by
        rcases List.mem_cons.1 hx with rfl | h
        · omega
        · exact h
      obtain ⟨h1, h2⟩ := ih (List.pairwise_cons.1 hl).2 hx'
      simp only [List.takeWhile_cons, hlt, decide_true, if_true, List.length_cons, List.eraseIdx_cons_succ]
      rw [h2, List.filter_cons, if_pos (by simp; omega)]
      exact ⟨by omega, rfl⟩
    · have : a = x := by
        rcases List.mem_cons.1 hx with rfl | h
        · rfl
        · have := ha x h; omega
      subst this
      simp only [List.takeWhile_cons, Nat.lt_irrefl, decide_false, Bool.false_eq_true, if_false, List.length_nil, List.eraseIdx_cons_zero, List.length_cons]
      refine ⟨by omega, ?_⟩
      rw [List.filter_cons, if_neg (by simp)]
      symm; rw [List.filter_eq_self]
      intro y hy; have := ha y hy; simp; omega

theorem visit_spec (hr : Reachable d ps) (F : IsFaceMap ps pairs) (S : SimpleFaces ps) {unv : List Nat} (hu : unv.Pairwise (· < ·)) {s : Bfs}
    (hk : ∀ u ∈ unv, ∃ kv ∈ pairs, kv.1 = u)
    (H : HInv unv (Tof ps (doneOf pairs unv)) (Dof ps (doneOf pairs unv)) s) {f : Nat} (hf : f ∈ unv) (hfq : f ∉ s.queue) :
    ∃ s', visit ps pairs s f = some s' ∧ ∃ unv', unv' = unv.filter (fun y => decide (y ≠ f)) ∧
      HInv unv' (Tof ps (doneOf pairs unv')) (Dof ps (doneOf pairs unv')) s' := by
  obtain ⟨h1, h2⟩ := lower_bound_mem hu hf
  obtain ⟨kv, hkv, hkf⟩ := hk f hf
  have hfind : pairs.find? (fun kv => kv.1 == f) = some kv := by
    cases hfi : pairs.find? (fun kv => kv.1 == f) with
    | none => rw [List.find?_eq_none] at hfi; exact absurd hkf (by simpa using hfi kv hkv)
    | some kv' =>
      have a := List.mem_of_find?_eq_some hfi
      have b := List.find?_some hfi
      simp only [beq_iff_eq] at b
      have : kv' = kv := by
        have hp := F.sorted
        by_contra hne
        rcases List.pairwise_iff_getElem.1 hp with hp
        obtain ⟨i, hi, rfl⟩ := List.getElem_of_mem a
        obtain ⟨j, hj, rfl⟩ := List.getElem_of_mem hkv
        rcases Nat.lt_trichotomy i j with h | h | h
        · have := hp i j hi hj h; omega
        · subst h; exact hne rfl
        · have := hp j i hj hi h; omega
      rw [this]
  unfold visit
  rw [H.unvis]
  simp only
  rw [if_neg h1, hfind]
  simp only
  refine ⟨_, rfl, _, rfl, ?_⟩
  rw [h2]
  have hlive := F.live kv hkv; rw [hkf] at hlive
  have H0 : HInv (unv.filter (fun y => decide (y ≠ f))) (Tof ps (doneOf pairs unv)) (Dof ps (doneOf pairs unv))
      { s with unvisited := unv.filter (fun y => decide (y ≠ f)) } :=
    ⟨rfl, H.cand, H.vis, fun q hq => by
      rw [List.mem_filter]; refine ⟨H.sub q hq, ?_⟩
      simp only [decide_eq_true_eq]; rintro rfl; exact hfq hq, H.nd, H.enq⟩
  have hst := H0.steps (pairs := pairs) hr hlive (S f hlive) (F.nodup kv hkv) ((ps.fh f).zipIdx.map (fun p => (p.2, p.1))) (by
      intro p hp
      obtain ⟨q, hq, rfl⟩ := List.mem_map.1 hp
      exact List.mem_zipIdx_iff_getElem?.1 hq) (by
      intro kv' hkv' hn hne e he
      refine ⟨kv', ?_, he⟩
      unfold doneOf
      rw [List.mem_filter]; refine ⟨hkv', ?_⟩
      simp only [List.mem_filter, decide_eq_true_eq, not_and, not_not] at hn ⊢
      exact fun h => hne (hn h))
  have hon : ∀ e, (∃ p ∈ (ps.fh f).zipIdx.map (fun p => (p.2, p.1)), edgeOf p.2 = e) ↔ OnFace ps e f := by
    intro e; unfold OnFace
    constructor
    · rintro ⟨p, hp, rfl⟩
      obtain ⟨q, hq, rfl⟩ := List.mem_map.1 hp
      exact ⟨q.1, List.mem_of_getElem? (List.mem_zipIdx_iff_getElem?.1 hq), rfl⟩
    · rintro ⟨h, hh, rfl⟩
      obtain ⟨i, hi⟩ := List.mem_iff_getElem?.1 hh
      exact ⟨(i, h), List.mem_map.2 ⟨(h, i), List.mem_zipIdx_iff_getElem?.2 hi, rfl⟩, rfl⟩
  have hdone : ∀ kv', kv' ∈ doneOf pairs (unv.filter (fun y => decide (y ≠ f))) ↔ kv' ∈ doneOf pairs unv ∨ kv' = kv := by
    intro kv'
    unfold doneOf
    simp only [List.mem_filter, decide_eq_true_eq, not_and, not_not]
    constructor
    · rintro ⟨a, b⟩
      by_cases hx : kv'.1 ∈ unv
      · right
        have e := b hx
        have hp := F.sorted
        by_contra hne
        rcases List.pairwise_iff_getElem.1 hp with hp
        obtain ⟨i, hi, rfl⟩ := List.getElem_of_mem a
        obtain ⟨j, hj, rfl⟩ := List.getElem_of_mem hkv
        rcases Nat.lt_trichotomy i j with h | h | h
        · have := hp i j hi hj h; omega
        · subst h; exact hne rfl
        · have := hp j i hj hi h; omega
      · exact .inl ⟨a, hx⟩
    · rintro (⟨a, b⟩ | rfl)
      · exact ⟨a, fun h => absurd h b⟩
      · exact ⟨hkv, fun _ => hkf⟩
  have e1 : (fun e => Tof ps (doneOf pairs unv) e ∨ ∃ p ∈ (ps.fh f).zipIdx.map (fun p => (p.2, p.1)), edgeOf p.2 = e) =
      Tof ps (doneOf pairs (unv.filter (fun y => decide (y ≠ f)))) := by
    funext e; rw [hon]; unfold Tof; simp only [hdone, eq_iff_iff]
    constructor
    · rintro (⟨k, a, b⟩ | b)
      · exact ⟨k, .inl a, b⟩
      · exact ⟨kv, .inr rfl, by rw [hkf]; exact b⟩
    · rintro ⟨k, a | rfl, b⟩
      · exact .inl ⟨k, a, b⟩
      · right; rw [hkf] at b; exact b
  have e2 : (fun e g => Dof ps (doneOf pairs unv) e g ∨ ((∃ p ∈ (ps.fh f).zipIdx.map (fun p => (p.2, p.1)), edgeOf p.2 = e) ∧ g ∈ kv.2)) =
      Dof ps (doneOf pairs (unv.filter (fun y => decide (y ≠ f)))) := by
    funext e g; rw [hon]; unfold Dof; simp only [hdone, eq_iff_iff]
    constructor
    · rintro (⟨k, a, b⟩ | b)
      · exact ⟨k, .inl a, b⟩
      · exact ⟨kv, .inr rfl, by rw [hkf]; exact b⟩
    · rintro ⟨k, a | rfl, b⟩
      · exact .inl ⟨k, a, b⟩
      · right; rw [hkf] at b; exact b
  rw [e1, e2] at hst
  exact hst

theorem seqLoop_spec (hr : Reachable d ps) (F : IsFaceMap ps pairs) (S : SimpleFaces ps) (fuel : Nat) : ∀ (s : Bfs) (unv : List Nat), unv.Pairwise (· < ·) →
    (∀ u ∈ unv, ∃ kv ∈ pairs, kv.1 = u) →
    (HInv unv (Tof ps (doneOf pairs unv)) (Dof ps (doneOf pairs unv)) { s with queue := s.queue.tail }) → (∀ f, s.queue.head? = some f → f ∈ unv ∧ f ∉ s.queue.tail) →
    2 * unv.length + (if s.queue = [] then 1 else 0) ≤ fuel → ∃ M, seqLoop ps pairs fuel s = some M ∧ EdgeMapOf ps pairs M := by
  induction fuel with
  | zero =>
    intro s unv hu hk H hq hf
    exfalso
    cases hqq : s.queue with
    | nil => rw [hqq] at hf; simp at hf
    | cons f q =>
      have := (hq f (by rw [hqq]; rfl)).1
      have := List.length_pos_of_mem this
      omega
  | succ fuel ih =>
    intro s unv hu hk H hq hf
    unfold seqLoop
    cases hqq : s.queue with
    | cons f q =>
      simp only
      rw [hqq] at H hq hf
      simp only [List.tail_cons] at H hq
      obtain ⟨hfu, hfq⟩ := hq f rfl
      obtain ⟨s', e, unv', rfl, H'⟩ := visit_spec hr F S hu hk H hfu hfq
      rw [e, Option.bind_some]
      have hlen : (unv.filter (fun y => decide (y ≠ f))).length < unv.length := by
        rw [List.length_filter_lt_length_iff_exists]; exact ⟨f, hfu, by simp⟩
      refine ih s' (unv.filter (fun y => decide (y ≠ f))) (hu.filter _) (fun u hu' => hk u (List.mem_filter.1 hu').1) ?_ ?_ ?_
      · exact ⟨H'.unvis, H'.cand, H'.vis, fun x hx => H'.sub x (List.mem_of_mem_tail hx), H'.nd.tail, fun x hx => H'.enq x (List.mem_of_mem_tail hx)⟩
      · intro f' hf'
        cases hs : s'.queue with
        | nil => rw [hs] at hf'; simp at hf'
        | cons a q' =>
          rw [hs] at hf'; simp only [List.head?_cons, Option.some.injEq] at hf'; subst hf'
          exact ⟨H'.sub a (by rw [hs]; simp), by have := H'.nd; rw [hs] at this; exact (List.nodup_cons.1 this).1⟩
      · simp only [reduceCtorEq, if_false] at hf; split_ifs <;> omega
    | nil =>
      simp only
      rw [hqq] at H hf
      have hun : s.unvisited = unv := H.unvis
      rw [hun]
      cases hl : unv.getLast? with
      | none =>
        refine ⟨_, rfl, ?_⟩
        rw [List.getLast?_eq_none_iff] at hl; subst hl
        have e : doneOf pairs [] = pairs := by unfold doneOf; simp
        have := H.cand; rw [e] at this; exact this.edgeMapOf
      | some f =>
        have hm := List.mem_of_getLast? hl
        refine ih _ unv hu hk ?_ ?_ ?_
        · exact ⟨by simp, H.cand, H.vis, by simp, by simp, by simp⟩
        · intro f' hf'; simp only [List.head?_cons, Option.some.injEq] at hf'; subst hf'; exact ⟨hm, by simp⟩
        · simp only [if_true] at hf; simp only [List.cons_ne_self, reduceCtorEq, if_false]; omega

end Mcut.Pairs
