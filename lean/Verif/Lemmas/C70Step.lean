import Verif.Lemmas.C70

/-! Lemmas for C70: one edge of "ps", with and without thread pool. -/
namespace Mcut.Boundary
open Mcut.Hmesh Mcut.Registry Mcut.CutEdges
variable {P : Type}

/-- One edge `e` of "ps" has been dealt with; `es` are its pieces. -/
structure Stepped (d : P) (ps : Mesh P) (base : Nat) (pts : Nat → List Nat) (sort : Nat → Nat → List Nat → List Nat) (c : CutEdges.St P) (e : Nat) (es : List Nat)
    (st st' : St P) : Prop where
  sound : Sound d c base st'.m0 st'.incoming
  pieces : es = List.range' st.m0.nE es.length
  nE : st'.m0.nE = st.m0.nE + es.length
  old : ∀ h, h / 2 < st.m0.nE → st'.m0.hd h = st.m0.hd h
  leads : Leads st'.m0 (along ps pts sort e) es
  chains : ∀ x, st'.chains x = if x = e ∧ 1 < (pts e).length then st.chains x ++ es else st.chains x
  plain : ∀ x, st'.plain x = if x = e ∧ pts e = [] then es.head? else st.plain x
  faces : ∀ f, c.faceEdges f ≠ [] → (st'.faceEdges f).Perm (st.faceEdges f ++ shares (facesOf ps e) es f)
  others : ∀ f, c.faceEdges f = [] → st'.faceEdges f = st.faceEdges f

theorem Ready.ends {d : P} {ps : Mesh P} {base : Nat} {pts : Nat → List Nat} {c : CutEdges.St P} (R : Ready d ps base pts c) {e : Nat} (he : LiveE ps e) :
    ps.edgeVertex e 0 < base ∧ ps.edgeVertex e 1 < base ∧ ps.edgeVertex e 0 ≠ ps.edgeVertex e 1 := by
  have W := reachable_wf R.psOk
  have h0 : LiveH ps (e * 2 + 0) := by rw [W.liveH_iff, show (e * 2 + 0) / 2 = e by omega]; exact he
  have h1 : LiveH ps (e * 2 + 1) := by rw [W.liveH_iff, show (e * 2 + 1) / 2 = e by omega]; exact he
  have a := W.half _ h0
  have b := W.half _ h1
  refine ⟨R.old _ a.2.2.1, R.old _ b.2.2.1, ?_⟩
  have := a.2.2.2
  rw [show opposite (e * 2 + 0) = e * 2 + 1 by unfold opposite; split <;> omega] at this
  exact fun h => this h.symm

theorem mem_facesOf {ps : Mesh P} {e f : Nat} : f ∈ facesOf ps e ↔ OnEdge ps e f := by
  unfold facesOf OnEdge
  simp only [List.mem_filterMap, List.mem_cons, List.not_mem_nil, or_false, id]
  constructor
  · rintro ⟨a, rfl | rfl, h⟩
    · exact .inl h
    · exact .inr h
  · rintro (h | h)
    · exact ⟨_, .inl rfl, h⟩
    · exact ⟨_, .inr rfl, h⟩

theorem shares_none {fs es : List Nat} {f : Nat} (h : f ∉ fs) : shares fs es f = [] := by
  unfold shares
  rw [List.filter_eq_nil_iff.2 (by intro a ha hb; simp at hb; subst hb; exact h ha)]; rfl

theorem Ready.unknown {d : P} {ps : Mesh P} {base : Nat} {pts : Nat → List Nat} {c : CutEdges.St P} (R : Ready d ps base pts c) {e : Nat} (he : LiveE ps e)
    (hp : pts e ≠ []) {f : Nat} (hf : c.faceEdges f = []) : f ∉ facesOf ps e := fun h => R.entries e f he hp (mem_facesOf.1 h) hf

/-- Part 1. -/
theorem chain_step {d : P} {ps : Mesh P} {base : Nat} {pts : Nat → List Nat} {sort : Nat → Nat → List Nat → List Nat} {c : CutEdges.St P} (R : Ready d ps base pts c)
    (A : Arranges ps pts sort) {e : Nat} (he : LiveE ps e) (hp : 1 < (pts e).length) {st : St P} (S : Sound d c base st.m0 st.incoming) :
    ∃ es, Stepped d ps base pts sort c e es st (chain ps e true (sort (ps.edgeVertex e 0) (ps.edgeVertex e 1) (pts e)) st) := by
  obtain ⟨q, hq, hs⟩ := A e he hp
  obtain ⟨e0, e1, e2⟩ := R.ends he
  have hpe : pts e ≠ [] := by intro h; rw [h] at hp; simp at hp
  have hql : 1 < q.length := by rw [hq.length_eq]; exact hp
  rw [hs]
  match q, hql, hq, hs with
  | x :: q, hql, hq, hs =>
    have hqb : ∀ y ∈ x :: q, base ≤ y ∧ y < c.m0.nV := fun y hy => (R.points e).2 y (hq.subset hy)
    have htot := R.total
    have hnd : (ps.edgeVertex e 0 :: x :: (q ++ [ps.edgeVertex e 1])).Nodup := by
      have hqn : (x :: q).Nodup := hq.nodup_iff.2 (R.points e).1
      rw [List.nodup_cons, ← List.cons_append, List.nodup_append]
      refine ⟨?_, hqn, by simp, ?_⟩
      · rw [List.mem_append]
        rintro (h | h)
        · have := (hqb _ h).1; omega
        · simp at h; exact e2 h
      · intro a ha b hb hab
        simp at hb
        have := (hqb _ ha).1; omega
    obtain ⟨es, r1, r2, r3, r4, r5, r6, r7, r8⟩ := chain_spec (d := d) (c := c) (base := base) ps e (q ++ [ps.edgeVertex e 1]) (ps.edgeVertex e 0) x true st S hnd
      (by
        intro y hy
        simp only [List.mem_cons, List.mem_append, List.not_mem_nil, or_false] at hy
        rcases hy with rfl | rfl | hy | rfl
        · omega
        · exact (hqb _ (by simp)).2
        · exact (hqb _ (by simp [hy])).2
        · omega)
      ⟨fun h => by omega, fun h => by simp at h⟩
      (by intro y hy; rw [← List.cons_append, List.dropLast_concat] at hy; exact (hqb y hy).1)
      (by simpa using e1) (by simp)
    refine ⟨es, r1, ?_, ?_, r4, ?_, ?_, ?_, fun f _ => r8 f, ?_⟩
    · rw [r2]; simp
    · rw [List.cons_append, r3, r2]; simp
    · unfold along; rw [if_pos hp, hs]; exact r5
    · intro y
      rw [List.cons_append, r6 y]
      by_cases hy : y = e
      · rw [if_pos hy, if_pos ⟨hy, hp⟩]
      · rw [if_neg hy, if_neg (fun h => hy h.1)]
    · intro y; rw [List.cons_append, r7, if_neg (fun h => hpe h.2)]
    · intro f hf
      have := r8 f
      rw [shares_none (R.unknown he hpe hf), List.append_nil] at this
      have hrun : (chain ps e true (ps.edgeVertex e 0 :: x :: (q ++ [ps.edgeVertex e 1])) st).faceEdges f = st.faceEdges f := by
        have key : ∀ (l : List Nat) (b : Bool) (s : St P), (chain ps e b l s).faceEdges f = s.faceEdges f := by
          intro l
          induction l with
          | nil => intro b s; cases b <;> rfl
          | cons a l ih =>
            intro b s
            cases l with
            | nil => cases b <;> rfl
            | cons a' l =>
              rw [chain, ih]
              simp only
              rw [foldl_push_perm, List.count_eq_zero_of_not_mem (R.unknown he hpe hf)]; simp
        exact key _ _ _
      exact hrun

theorem foldl_push_if (fs : List Nat) (known : Nat → Bool) (n : Nat) : ∀ (M : Nat → List Nat) (f : Nat),
    fs.foldl (fun M f => if known f then push M f n else M) M f = if known f then M f ++ List.replicate (fs.count f) n else M f := by
  induction fs with
  | nil => intro M f; simp
  | cons a fs ih =>
    intro M f
    rw [List.foldl_cons, ih]
    by_cases h : f = a
    · subst h
      by_cases hk : known f = true
      · simp only [hk, if_true]
        rw [push_same, List.count_cons_self, List.replicate_succ, List.append_assoc]; rfl
      · simp only [hk]; simp
    · rw [List.count_cons_of_ne (Ne.symm h)]
      by_cases hk : known a = true
      · simp only [hk, if_true]; rw [push_other _ _ h]
      · simp only [hk]; simp

theorem foldl_push2 (fs : List Nat) (n k : Nat) : ∀ (M : Nat → List Nat) (f : Nat),
    fs.foldl (fun M f => push (push M f n) f k) M f = M f ++ shares fs [n, k] f := by
  unfold shares
  induction fs with
  | nil => intro M f; simp
  | cons a fs ih =>
    intro M f
    rw [List.foldl_cons, ih]
    by_cases h : a = f
    · subst h
      rw [push_same, push_same]; simp
    · rw [push_other _ _ (Ne.symm h), push_other _ _ (Ne.symm h)]
      have : (a == f) = false := by simpa using h
      simp [this]

theorem three_eq {base a b x : Nat} (ha : a < base) (hb : b < base) : three base a b x = (a, x, b) := by
  unfold three; rw [if_pos ha, if_neg (by omega)]

/-- Part 2 without thread pool. -/
theorem edgeStep_step {d : P} {ps : Mesh P} {base : Nat} {pts : Nat → List Nat} {sort : Nat → Nat → List Nat → List Nat} {c : CutEdges.St P} (R : Ready d ps base pts c)
    {e : Nat} (he : LiveE ps e) (hp : ¬ 1 < (pts e).length) {st : St P} (S : Sound d c base st.m0 st.incoming) {known : Nat → Bool}
    (hk : ∀ f, known f = true ↔ c.faceEdges f ≠ []) :
    ∃ es, Stepped d ps base pts sort c e es st (edgeStep ps base pts known st e) := by
  obtain ⟨e0, e1, e2⟩ := R.ends he
  have htot := R.total
  have heo : edgeOf (2 * st.m0.nE) = st.m0.nE := by unfold edgeOf; omega
  match hpts : pts e, hp with
  | [], _ =>
    have hal : along ps pts sort e = [ps.edgeVertex e 0, ps.edgeVertex e 1] := by unfold along; rw [hpts]; simp
    obtain ⟨a1, E, nE', S'⟩ := addEdge_sound S (v := ps.edgeVertex e 1) (w := ps.edgeVertex e 0) (by omega) (by omega) (Ne.symm e2)
    have hrun : edgeStep ps base pts known st e = ⟨(st.m0.addEdge (ps.edgeVertex e 1) (ps.edgeVertex e 0)).1,
        (facesOf ps e).foldl (fun M f => if known f then push M f st.m0.nE else M) st.faceEdges, st.incoming, st.chains, upd st.plain e (some st.m0.nE)⟩ := by
      unfold edgeStep; rw [hpts]; simp only [a1, heo]
    rw [hrun]
    refine ⟨[st.m0.nE], ?_, by simp [List.range'], by simpa using nE', fun h hh => E.hd h (by omega), ?_, ?_, ?_, ?_, ?_⟩
    · have : st.incoming = note base st.incoming (ps.edgeVertex e 1) (ps.edgeVertex e 0) (2 * st.m0.nE) := by
        funext x; unfold note; rw [if_neg (by omega), if_neg (by omega)]; simp
      simp only
      rw [this]; exact S'
    · rw [hal]; exact leads_cons (joins_swap.1 (joins_new E)) ⟨by simp, fun i e v w h => by simp at h⟩
    · intro x; rw [if_neg (by rw [hpts]; simp)]
    · intro x; simp only [upd, hpts, and_true, List.head?_cons]
    · intro f hf
      simp only
      rw [foldl_push_if, if_pos ((hk f).2 hf)]
      refine List.Perm.append_left _ ?_
      exact ((shares_cons_perm (facesOf ps e) st.m0.nE [] f).trans (by rw [shares_nil, List.append_nil])).symm
    · intro f hf
      simp only
      rw [foldl_push_if, if_neg (fun h => (hk f).1 h hf)]
  | [x], _ =>
    have hx := (R.points e).2 x (by rw [hpts]; simp)
    have hpe : pts e ≠ [] := by rw [hpts]; simp
    have hal : along ps pts sort e = [ps.edgeVertex e 0, x, ps.edgeVertex e 1] := by unfold along; rw [hpts]; simp
    obtain ⟨a1, E, nE', S'⟩ := addEdge_sound S (v := ps.edgeVertex e 0) (w := x) (by omega) (by omega) (by omega)
    obtain ⟨a2, E2, nE2, S2⟩ := addEdge_sound S' (v := x) (w := ps.edgeVertex e 1) (by omega) (by omega) (by omega)
    have heo2 : edgeOf (2 * (st.m0.nE + 1)) = st.m0.nE + 1 := by unfold edgeOf; omega
    rw [nE'] at a2 E2 nE2 S2
    have hrun : edgeStep ps base pts known st e = ⟨((st.m0.addEdge (ps.edgeVertex e 0) x).1.addEdge x (ps.edgeVertex e 1)).1,
        (facesOf ps e).foldl (fun M f => push (push M f st.m0.nE) f (st.m0.nE + 1)) st.faceEdges,
        push (push st.incoming x (2 * st.m0.nE)) x (opposite (2 * (st.m0.nE + 1))), st.chains, st.plain⟩ := by
      unfold edgeStep; rw [hpts]; simp only [three_eq e0 e1, a1, a2, heo, heo2]
    rw [hrun]
    refine ⟨[st.m0.nE, st.m0.nE + 1], ?_, by simp [List.range'], by simpa using nE2, ?_, ?_, ?_, ?_, ?_, ?_⟩
    · have : push (push st.incoming x (2 * st.m0.nE)) x (opposite (2 * (st.m0.nE + 1))) =
          note base (note base st.incoming (ps.edgeVertex e 0) x (2 * st.m0.nE)) x (ps.edgeVertex e 1) (2 * (st.m0.nE + 1)) := by
        funext y
        unfold note push
        rw [if_neg (show ¬ (base ≤ ps.edgeVertex e 0 ∧ y = ps.edgeVertex e 0) by omega), if_neg (show ¬ (base ≤ ps.edgeVertex e 1 ∧ y = ps.edgeVertex e 1) by omega)]
        by_cases hy : y = x
        · subst hy; rw [if_pos rfl, if_pos rfl, if_pos ⟨hx.1, rfl⟩, if_pos ⟨hx.1, rfl⟩]; simp
        · rw [if_neg hy, if_neg hy, if_neg (fun h => hy h.2), if_neg (fun h => hy h.2)]; simp
      simp only
      rw [this]; exact S2
    · intro h hh
      simp only
      rw [E2.hd h (by omega), E.hd h (by omega)]
    · rw [hal]
      refine leads_cons ((joins_old E2 (by omega)).2 (joins_new E)) (leads_cons (joins_new E2) ⟨by simp, fun i e v w h => by simp at h⟩)
    · intro y; rw [if_neg (by rw [hpts]; simp)]
    · intro y; rw [if_neg (by rw [hpts]; simp)]
    · intro f hf
      simp only
      rw [foldl_push2]
    · intro f hf
      simp only
      rw [foldl_push2, shares_none (R.unknown he hpe hf), List.append_nil]
  | _ :: _ :: _, hp => simp at hp

/-! ### With thread pool -/

/-- The numbers in the output of a block are in range. -/
structure InRange (L : Local) : Prop where
  plain : ∀ x ∈ L.plain, x.2 < L.edges.length
  faces : ∀ f, ∀ i ∈ L.faces f, i < L.edges.length
  incoming : ∀ v, ∀ h ∈ L.incoming v, h / 2 < L.edges.length

theorem addLocal_snoc (l : List (Nat × Nat)) (x : Nat × Nat) (m : Mesh P) :
    addLocal (l ++ [x]) m = (((addLocal l m).1.addEdge x.1 x.2).1, (addLocal l m).2 ++ [edgeOf ((addLocal l m).1.addEdge x.1 x.2).2]) := by
  unfold addLocal; rw [List.foldl_append]; rfl

theorem addLocal_length (l : List (Nat × Nat)) (m : Mesh P) : (addLocal l m).2.length = l.length := by
  induction l using List.reverseRecOn with
  | nil => rfl
  | append_singleton l x ih => rw [addLocal_snoc]; simp [ih]

theorem getD_append_lt {l t : List Nat} {i : Nat} (h : i < l.length) : (l ++ t).getD i 0 = l.getD i 0 := by
  rw [List.getD_eq_getElem?_getD, List.getD_eq_getElem?_getD, List.getElem?_append_left h]

theorem getD_append_at {l t : List Nat} {i : Nat} (h : i = l.length) : (l ++ t).getD i 0 = t.getD 0 0 := by
  rw [List.getD_eq_getElem?_getD, List.getD_eq_getElem?_getD, List.getElem?_append_right (by omega)]; congr 2; omega

theorem getD_append_at1 {l t : List Nat} {i : Nat} (h : i = l.length + 1) : (l ++ t).getD i 0 = t.getD 1 0 := by
  rw [List.getD_eq_getElem?_getD, List.getD_eq_getElem?_getD, List.getElem?_append_right (by omega)]; congr 2; omega

theorem foldl_upd_congr (f g : Nat → Option Nat) : ∀ (l : List (Nat × Nat)) (M : Nat → Option Nat), (∀ x ∈ l, f x.2 = g x.2) →
    l.foldl (fun M x => upd M x.1 (f x.2)) M = l.foldl (fun M x => upd M x.1 (g x.2)) M := by
  intro l
  induction l with
  | nil => intro M _; rfl
  | cons a l ih =>
    intro M h
    rw [List.foldl_cons, List.foldl_cons, h a (by simp)]
    exact ih _ (fun x hx => h x (by simp [hx]))

theorem count_push_if (fs : List Nat) (known : Nat → Bool) (n : Nat) (M : Nat → List Nat) (f i : Nat)
    (h : i ∈ fs.foldl (fun M f => if known f then push M f n else M) M f) : i ∈ M f ∨ i = n := by
  rw [foldl_push_if] at h
  split at h
  · rw [List.mem_append] at h
    rcases h with h | h
    · exact .inl h
    · exact .inr (List.eq_of_mem_replicate h)
  · exact .inl h

theorem mem_shares {fs es : List Nat} {f i : Nat} (h : i ∈ shares fs es f) : i ∈ es := by
  unfold shares at h
  rw [List.mem_flatMap] at h
  obtain ⟨-, -, h⟩ := h; exact h

theorem merge_step {d : P} {ps : Mesh P} {base : Nat} {pts : Nat → List Nat} {c : CutEdges.St P} (R : Ready d ps base pts c)
    {e : Nat} (he : LiveE ps e) {st : St P} {L : Local} (I : InRange L) (S : Sound d c base (merge L st).m0 (merge L st).incoming) (known : Nat → Bool) :
    InRange (localStep ps base pts known L e) ∧ merge (localStep ps base pts known L e) st = edgeStep ps base pts known (merge L st) e := by
  obtain ⟨e0, e1, e2⟩ := R.ends he
  have htot := R.total
  have hlen : (addLocal L.edges st.m0).2.length = L.edges.length := addLocal_length _ _
  have hm : (merge L st).m0 = (addLocal L.edges st.m0).1 := rfl
  match hpts : pts e with
  | [] =>
    have hls : localStep ps base pts known L e = ⟨L.edges ++ [(ps.edgeVertex e 1, ps.edgeVertex e 0)], L.plain ++ [(e, L.edges.length)],
        (facesOf ps e).foldl (fun M f => if known f then push M f L.edges.length else M) L.faces, L.incoming⟩ := by unfold localStep; rw [hpts]
    rw [hls]
    refine ⟨⟨?_, ?_, ?_⟩, ?_⟩
    · intro x hx
      simp only [List.mem_append, List.mem_singleton, List.length_append, List.length_cons, List.length_nil] at hx ⊢
      rcases hx with hx | rfl
      · have := I.plain x hx; omega
      · simp
    · intro f i hi
      simp only [List.length_append, List.length_cons, List.length_nil] at hi ⊢
      rcases count_push_if _ _ _ _ _ _ hi with h | h
      · have := I.faces f i h; omega
      · omega
    · intro v h hh
      have := I.incoming v h hh
      simp only [List.length_append, List.length_cons, List.length_nil]; omega
    · have hes : edgeStep ps base pts known (merge L st) e = ⟨((merge L st).m0.addEdge (ps.edgeVertex e 1) (ps.edgeVertex e 0)).1,
          (facesOf ps e).foldl (fun M f => if known f then push M f (edgeOf ((merge L st).m0.addEdge (ps.edgeVertex e 1) (ps.edgeVertex e 0)).2) else M) (merge L st).faceEdges,
          (merge L st).incoming, (merge L st).chains, upd (merge L st).plain e (some (edgeOf ((merge L st).m0.addEdge (ps.edgeVertex e 1) (ps.edgeVertex e 0)).2))⟩ := by
        unfold edgeStep; rw [hpts]
      rw [hes, hm]
      unfold merge
      simp only
      rw [addLocal_snoc]
      simp only
      generalize addLocal L.edges st.m0 = r at *
      congr 1
      · funext f
        rw [foldl_push_if, foldl_push_if]
        have hold : (L.faces f).map (fun i => (r.2 ++ [edgeOf (r.1.addEdge (ps.edgeVertex e 1) (ps.edgeVertex e 0)).2]).getD i 0) = (L.faces f).map (fun i => r.2.getD i 0) :=
          List.map_congr_left (fun i hi => getD_append_lt (by rw [hlen]; exact I.faces f i hi))
        split
        · rw [List.map_append, hold, List.map_replicate, getD_append_at hlen.symm, List.append_assoc]; rfl
        · rw [hold]
      · funext v
        congr 1
        exact List.map_congr_left (fun h hh => by rw [getD_append_lt (by rw [hlen]; exact I.incoming v h hh)])
      · rw [List.foldl_append]
        simp only [List.foldl_cons, List.foldl_nil]
        rw [getD_append_at hlen.symm]
        congr 1
        exact foldl_upd_congr (fun i => some ((r.2 ++ [edgeOf (r.1.addEdge (ps.edgeVertex e 1) (ps.edgeVertex e 0)).2]).getD i 0)) (fun i => some (r.2.getD i 0)) _ _
          (fun x hx => congrArg some (getD_append_lt (by rw [hlen]; exact I.plain x hx)))
  | [x] =>
    have hx := (R.points e).2 x (by rw [hpts]; simp)
    obtain ⟨a1, -, nE', S'⟩ := addEdge_sound S (v := ps.edgeVertex e 0) (w := x) (by omega) (by omega) (by omega)
    obtain ⟨a2, -, -, -⟩ := addEdge_sound S' (v := x) (w := ps.edgeVertex e 1) (by omega) (by omega) (by omega)
    have hls : localStep ps base pts known L e = ⟨L.edges ++ [(ps.edgeVertex e 0, x), (x, ps.edgeVertex e 1)], L.plain,
        (facesOf ps e).foldl (fun M f => push (push M f L.edges.length) f (L.edges.length + 1)) L.faces,
        push (push L.incoming x (L.edges.length * 2)) x ((L.edges.length + 1) * 2 + 1)⟩ := by
      unfold localStep; rw [hpts]; simp only [three_eq e0 e1]
    rw [hls]
    refine ⟨⟨?_, ?_, ?_⟩, ?_⟩
    · intro y hy
      have := I.plain y hy
      simp only [List.length_append, List.length_cons, List.length_nil]; omega
    · intro f i hi
      simp only [List.length_append, List.length_cons, List.length_nil] at hi ⊢
      rw [foldl_push2, List.mem_append] at hi
      rcases hi with h | h
      · have := I.faces f i h; omega
      · have := mem_shares h; simp at this; omega
    · intro v h hh
      simp only [List.length_append, List.length_cons, List.length_nil] at hh ⊢
      unfold push at hh
      by_cases hv : v = x
      · simp only [hv, if_true, List.mem_append, List.mem_singleton] at hh
        rcases hh with (hh | hh) | hh
        · have := I.incoming x h hh; omega
        · omega
        · omega
      · simp only [hv, if_false] at hh
        have := I.incoming v h hh; omega
    · have hes : edgeStep ps base pts known (merge L st) e = ⟨(((merge L st).m0.addEdge (ps.edgeVertex e 0) x).1.addEdge x (ps.edgeVertex e 1)).1,
          (facesOf ps e).foldl (fun M f => push (push M f (edgeOf ((merge L st).m0.addEdge (ps.edgeVertex e 0) x).2)) f
            (edgeOf (((merge L st).m0.addEdge (ps.edgeVertex e 0) x).1.addEdge x (ps.edgeVertex e 1)).2)) (merge L st).faceEdges,
          push (push (merge L st).incoming x ((merge L st).m0.addEdge (ps.edgeVertex e 0) x).2) x
            (opposite (((merge L st).m0.addEdge (ps.edgeVertex e 0) x).1.addEdge x (ps.edgeVertex e 1)).2), (merge L st).chains, (merge L st).plain⟩ := by
        unfold edgeStep; rw [hpts]; simp only [three_eq e0 e1]
      rw [hes, a1, a2, hm]
      unfold merge
      simp only
      rw [show L.edges ++ [(ps.edgeVertex e 0, x), (x, ps.edgeVertex e 1)] = (L.edges ++ [(ps.edgeVertex e 0, x)]) ++ [(x, ps.edgeVertex e 1)] by simp, addLocal_snoc, addLocal_snoc]
      simp only
      rw [hm] at a1 a2
      simp only [a1, a2, List.append_assoc]
      generalize addLocal L.edges st.m0 = r at *
      generalize hn : (r.1.addEdge (ps.edgeVertex e 0) x).1.nE = n2 at *
      congr 1
      · funext f
        rw [foldl_push2, foldl_push2, List.map_append, List.append_assoc]
        congr 1
        · congr 1
          · exact List.map_congr_left (fun i hi => getD_append_lt (by rw [hlen]; exact I.faces f i hi))
          · unfold shares
            rw [List.map_flatMap]
            simp only [List.map_cons, List.map_nil]
            rw [getD_append_at (l := r.2) hlen.symm, getD_append_at1 (l := r.2) (i := L.edges.length + 1) (by rw [hlen])]
            rfl
      · funext v
        unfold push
        by_cases hv : v = x
        · subst hv
          simp only [if_true, List.map_append, List.map_cons, List.map_nil, List.append_assoc]
          rw [show L.edges.length * 2 / 2 = L.edges.length by omega, show L.edges.length * 2 % 2 = 0 by omega,
            show ((L.edges.length + 1) * 2 + 1) / 2 = L.edges.length + 1 by omega, show ((L.edges.length + 1) * 2 + 1) % 2 = 1 by omega,
            getD_append_at (l := r.2) hlen.symm, getD_append_at1 (l := r.2) (i := L.edges.length + 1) (by rw [hlen])]
          congr 1
          congr 1
          · exact List.map_congr_left (fun h hh => by rw [getD_append_lt (by rw [hlen]; exact I.incoming v h hh)])
          · simp only [halfedgeOf, edgeOf, List.cons_append, List.nil_append, List.getD_cons_zero, List.getD_cons_succ]
            rw [opposite_even]
            congr 1
            · omega
            · congr 1; omega
        · simp only [hv, if_false]
          congr 1
          exact List.map_congr_left (fun h hh => by rw [getD_append_lt (by rw [hlen]; exact I.incoming v h hh)])
      · exact foldl_upd_congr (fun i => some ((r.2 ++ ([edgeOf (2 * r.1.nE)] ++ [edgeOf (2 * n2)])).getD i 0)) (fun i => some (r.2.getD i 0)) _ _
          (fun x hx => congrArg some (getD_append_lt (by rw [hlen]; exact I.plain x hx)))
  | a :: b :: l =>
    have hls : localStep ps base pts known L e = L := by unfold localStep; rw [hpts]
    have hes : edgeStep ps base pts known (merge L st) e = merge L st := by unfold edgeStep; rw [hpts]
    rw [hls, hes]; exact ⟨I, rfl⟩

end Mcut.Boundary
