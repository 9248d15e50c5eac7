import Verif.Lemmas.C63
import Verif.Props.C61

/-!
# C63: every intersection point is recorded once, in consistent tables
-/
namespace Mcut.Registry
open Mcut.Hmesh Mcut.Sched Mcut.Extract Mcut.Pairs
variable {P : Type}

/-- **C63 (without the thread pool).** A violation is reported exactly if some candidate pair violates general position; otherwise the tables hold exactly the points
of the candidate pairs. -/
theorem C63_sequential (ps : Mesh P) (smV smF psV : Nat) (test : Nat → Nat → Outcome P) (cand : List (Nat × List Nat))
    (hs : ∀ x ∈ cand, ∀ f ∈ x.2, Sided ps smV smF x.1 f) :
    (sequential ps smV smF psV test cand = none ↔ Violated test cand) ∧
    ∀ t, sequential ps smV smF psV test cand = some t → Recorded ps smF psV (hits test cand) t := by
  have := testEdges_spec (base := psV) (test := test) cand [] _ hs (recorded_empty ps smF psV)
  simpa [sequential] using this

theorem job_spec (ps : Mesh P) (smV smF : Nat) (test : Nat → Nat → Outcome P) (cand : List (Nat × List Nat))
    (hs : ∀ x ∈ cand, ∀ f ∈ x.2, Sided ps smV smF x.1 f) :
    (job ps smV smF test cand = none ↔ Violated test cand) ∧
    ∀ t, job ps smV smF test cand = some t → Recorded ps smF 0 (hits test cand) t := by
  have := testEdges_spec (base := 0) (test := test) cand [] _ hs (recorded_empty ps smF 0)
  simpa [job] using this

theorem hits_append (test : Nat → Nat → Outcome P) (a b : List (Nat × List Nat)) : hits test (a ++ b) = hits test a ++ hits test b := by simp [hits]

theorem hits_edge {test : Nat → Nat → Outcome P} {cand : List (Nat × List Nat)} {y : Nat × Nat × P} (h : y ∈ hits test cand) :
    y.1 ∈ cand.map Prod.fst := by
  unfold hits at h
  obtain ⟨x, hx, hy⟩ := List.mem_flatMap.1 h
  obtain ⟨f, _, hf⟩ := List.mem_filterMap.1 hy
  split at hf
  · simp only [Option.some.injEq] at hf; subst hf; exact List.mem_map.2 ⟨x, hx, rfl⟩
  · cases hf

/-- What holds in every state of the parallel stage. -/
structure Inv (ps : Mesh P) (smV smF psV : Nat) (test : Nat → Nat → Outcome P) (M : List (Nat × List Nat)) (W : List (List (Nat × List Nat))) (s : Par P) : Prop where
  bad : s.ok = false → Violated test (M ++ W.flatten)
  master : ∀ u, s.master = .finished u → s.ok = true → job ps smV smF test M = some u
  worker : ∀ (i : Nat) w u, W[i]? = some w → s.worker i = .finished u → s.ok = true → job ps smV smF test w = some u
  early : (∀ u, s.master ≠ .finished u) → s.next = 0
  le : s.next ≤ W.length
  merged : ∀ i, i < s.next → ∃ u, s.worker i = .finished u
  acc : ∀ u, s.master = .finished u → s.ok = true → Recorded ps smF psV (hits test (M ++ (W.take s.next).flatten)) s.acc
  seen : s.next = W.length → W ≠ [] → s.okSeen = s.ok

theorem Violated.of_mem {test : Nat → Nat → Outcome P} {a b : List (Nat × List Nat)} (h : Violated test a) (hsub : ∀ x ∈ a, x ∈ b) : Violated test b := by
  obtain ⟨x, hx, r⟩ := h; exact ⟨x, hsub x hx, r⟩

theorem mem_flatten_of_get {W : List (List (Nat × List Nat))} {i : Nat} {w} (h : W[i]? = some w) : ∀ x ∈ w, x ∈ W.flatten :=
  fun _ hx => List.mem_flatten.2 ⟨w, List.mem_of_getElem? h, hx⟩

theorem inv_reach {ps : Mesh P} {smV smF psV : Nat} {test : Nat → Nat → Outcome P} {M : List (Nat × List Nat)} {W : List (List (Nat × List Nat))}
    (hs : ∀ x ∈ M ++ W.flatten, ∀ f ∈ x.2, Sided ps smV smF x.1 f) (hk : ((M ++ W.flatten).map Prod.fst).Nodup) {s : Par P}
    (h : Reach ps smV smF psV test M W s) : Inv ps smV smF psV test M W s := by
  have hM := job_spec ps smV smF test M (fun x hx => hs x (by simp [hx]))
  have hW : ∀ (i : Nat) w, W[i]? = some w → (job ps smV smF test w = none ↔ Violated test w) ∧
      ∀ t, job ps smV smF test w = some t → Recorded ps smF 0 (hits test w) t := fun i w hw =>
    job_spec ps smV smF test w (fun x hx => hs x (List.mem_append_right _ (mem_flatten_of_get hw x hx)))
  induction h with
  | init => exact ⟨by simp [Par.init], by simp [Par.init], by simp [Par.init], by simp [Par.init], by simp [Par.init], by simp [Par.init],
      by simp [Par.init], by simp [Par.init]⟩
  | step hr hst I =>
    cases hst with
    | startWorker i hi hidle =>
      refine ⟨I.bad, I.master, ?_, I.early, I.le, ?_, I.acc, I.seen⟩
      · intro j w u hj hu hok
        simp only [upd] at hu
        split at hu
        · simp only at hok
          rw [hok] at hu
          simp [begin] at hu
        · exact I.worker j w u hj hu hok
      · intro j hj
        obtain ⟨u, hu⟩ := I.merged j hj
        have : j ≠ i := by rintro rfl; rw [hidle] at hu; cases hu
        exact ⟨u, by simp [upd, this, hu]⟩
    | endWorker i w hi hrun =>
      have hlt : i < W.length := (List.getElem?_eq_some_iff.1 hi).1
      cases hj : job ps smV smF test w with
      | none =>
        simp only [endStatus, Option.isNone_none, if_true]
        have hv := (hW i w hi).1.1 hj
        refine ⟨fun _ => hv.of_mem (fun x hx => List.mem_append_right _ (mem_flatten_of_get hi x hx)), by simp, by simp, I.early, I.le, ?_, by simp, ?_⟩
        · intro j hjn
          obtain ⟨u, hu⟩ := I.merged j hjn
          have : j ≠ i := by rintro rfl; rw [hrun] at hu; cases hu
          exact ⟨u, by simp [upd, this, hu]⟩
        · intro hn
          simp only at hn
          obtain ⟨u, hu⟩ := I.merged i (by omega)
          rw [hrun] at hu; cases hu
      | some t =>
        simp only [endStatus, Option.isNone_some, Bool.false_eq_true, if_false]
        refine ⟨I.bad, I.master, ?_, I.early, I.le, ?_, I.acc, I.seen⟩
        · intro j w' u hjw hu hok
          simp only [upd] at hu
          split at hu
          · rename_i hji
            subst hji
            rw [hi] at hjw
            simp only [Option.some.injEq] at hjw
            subst hjw
            simp only [endOutput, Phase.finished.injEq, Option.getD_some] at hu
            rw [hj, hu]
          · exact I.worker j w' u hjw hu hok
        · intro j hjn
          obtain ⟨u, hu⟩ := I.merged j hjn
          have : j ≠ i := by rintro rfl; rw [hrun] at hu; cases hu
          exact ⟨u, by simp [upd, this, hu]⟩
    | startMaster hidle =>
      have h0 := I.early (fun u hu => by rw [hidle] at hu; cases hu)
      refine ⟨I.bad, ?_, I.worker, fun _ => h0, I.le, I.merged, ?_, I.seen⟩
      · intro u hu hok; simp only at hok; rw [hok] at hu; simp [begin] at hu
      · intro u hu hok; simp only at hok; rw [hok] at hu; simp [begin] at hu
    | endMaster hrun =>
      have h0 := I.early (fun u hu => by rw [hrun] at hu; cases hu)
      cases hj : job ps smV smF test M with
      | none =>
        simp only [endStatus, Option.isNone_none, if_true]
        refine ⟨fun _ => (hM.1.1 hj).of_mem (fun x hx => by simp [hx]), by simp, by simp, fun _ => h0, I.le, I.merged, by simp, ?_⟩
        intro hn hne
        simp only [h0] at hn
        exact absurd (List.length_eq_zero_iff.1 hn.symm) hne
      | some t =>
        simp only [endStatus, Option.isNone_some, Bool.false_eq_true, if_false]
        refine ⟨I.bad, ?_, I.worker, fun _ => h0, I.le, I.merged, ?_, I.seen⟩
        · intro u hu hok
          simp only [endOutput, Phase.finished.injEq, Option.getD_some] at hu
          rw [hj, hu]
        · intro u hu hok
          simp only [h0, endOutput, Option.getD_some, List.take_zero, List.flatten_nil, List.append_nil]
          exact shift_spec (hM.2 t hj)
    | merge t u hm hn hfin =>
      rename_i s0
      refine ⟨I.bad, I.master, I.worker, ?_, hn, ?_, ?_, fun _ _ => rfl⟩
      · intro hh; exact absurd hm (hh u)
      · intro j hj
        simp only at hj
        rcases Nat.lt_or_ge j s0.next with h | h
        · exact I.merged j h
        · have : j = s0.next := by omega
          subst this; exact ⟨t, hfin⟩
      · intro u' hu' hok
        simp only at hok hu' ⊢
        rw [if_pos hok]
        have hw : W[s0.next]? = some W[s0.next] := List.getElem?_eq_getElem hn
        have hjob := I.worker s0.next _ t hw hfin hok
        have hrec := (hW s0.next _ hw).2 t hjob
        have hacc := I.acc u' hu' hok
        have e : M ++ (W.take (s0.next + 1)).flatten = (M ++ (W.take s0.next).flatten) ++ W[s0.next] := by
          rw [List.take_succ_eq_append_getElem hn, List.flatten_append]; simp
        rw [e, hits_append]
        refine merge_spec hacc hrec (fun x hx y hy hxy => ?_)
        have hsplit : M ++ W.flatten = (M ++ (W.take s0.next).flatten ++ W[s0.next]) ++ (W.drop (s0.next + 1)).flatten := by
          rw [← e]
          conv_lhs => rw [← List.take_append_drop (s0.next + 1) W]
          rw [List.flatten_append, List.append_assoc]
        rw [hsplit, List.map_append, List.nodup_append, List.map_append, List.nodup_append] at hk
        exact hk.1.2.2 _ (hits_edge hx) _ (hits_edge hy) hxy

/-- **C63 (with the thread pool).** In every execution, whatever the order in which the jobs start, end and are merged: when the calling thread leaves the stage, a
violation is reported exactly if some candidate pair violates general position, and otherwise the tables hold exactly the points of the candidate pairs; they do not
depend on the execution. -/
theorem C63_parallel (ps : Mesh P) (smV smF psV : Nat) (test : Nat → Nat → Outcome P) (M : List (Nat × List Nat)) (W : List (List (Nat × List Nat)))
    (hs : ∀ x ∈ M ++ W.flatten, ∀ f ∈ x.2, Sided ps smV smF x.1 f) (hk : ((M ++ W.flatten).map Prod.fst).Nodup) (s : Par P)
    (h : Reach ps smV smF psV test M W s) (hd : s.Done W) :
    (s.result W = none ↔ Violated test (M ++ W.flatten)) ∧ ∀ t, s.result W = some t → Recorded ps smF psV (hits test (M ++ W.flatten)) t := by
  have I := inv_reach hs hk h
  obtain ⟨⟨u, hu⟩, hn⟩ := hd
  have hres : s.result W = if s.ok then some s.acc else none := by
    unfold Par.result
    by_cases hW : W = []
    · simp [hW]
    · rw [if_neg (by simpa using hW), I.seen hn hW]
  rw [hres]
  have hok : s.ok = true → ¬ Violated test (M ++ W.flatten) := by
    intro hok hv
    obtain ⟨x, hx, f, hf, hvf⟩ := hv
    rw [List.mem_append, List.mem_flatten] at hx
    rcases hx with hx | ⟨w, hw, hx⟩
    · have := I.master u hu hok
      have h2 := (job_spec ps smV smF test M (fun x hx => hs x (by simp [hx]))).1.2 ⟨x, hx, f, hf, hvf⟩
      rw [h2] at this; cases this
    · obtain ⟨i, hi⟩ := List.getElem?_of_mem hw
      have hlt : i < W.length := (List.getElem?_eq_some_iff.1 hi).1
      obtain ⟨u', hu'⟩ := I.merged i (by omega)
      have := I.worker i w u' hi hu' hok
      have h2 := (job_spec ps smV smF test w (fun x hx => hs x (List.mem_append_right _ (mem_flatten_of_get hi x hx)))).1.2 ⟨x, hx, f, hf, hvf⟩
      rw [h2] at this; cases this
  cases hso : s.ok with
  | false =>
    have hn0 : (if false = true then some s.acc else none) = (none : Option (Tables P)) := rfl
    rw [hn0]
    refine ⟨⟨fun _ => I.bad hso, fun _ => rfl⟩, fun t ht => ?_⟩
    cases ht
  | true =>
    simp only [if_true]
    refine ⟨⟨fun hh => (by cases hh), fun hh => absurd hh (hok hso)⟩, fun t ht => ?_⟩
    simp only [Option.some.injEq] at ht
    subst ht
    have := I.acc u hu hso
    rwa [hn, List.take_length] at this

/-- Remaining steps of a job. -/
def rank : Phase P → Nat
  | .idle => 2
  | .running => 1
  | .finished _ => 0

/-- Remaining steps of the stage. -/
def measure (W : List (List (Nat × List Nat))) (s : Par P) : Nat :=
  ((List.range W.length).map (fun i => rank (s.worker i))).sum + rank s.master + (W.length - s.next)

theorem sum_upd (f : Nat → Nat) (l : List Nat) (hl : l.Nodup) (i : Nat) (hi : i ∈ l) (v : Nat) (hv : v < f i) :
    (l.map (upd f i v)).sum < (l.map f).sum := by
  induction l with
  | nil => simp at hi
  | cons a l ih =>
    rw [List.nodup_cons] at hl
    rw [List.map_cons, List.map_cons, List.sum_cons, List.sum_cons]
    by_cases ha : i = a
    · subst ha
      have : l.map (upd f i v) = l.map f := List.map_congr_left (fun x hx => by rw [upd_other]; rintro rfl; exact hl.1 hx)
      rw [this, upd_same]; omega
    · have h1 : i ∈ l := by simpa [ha] using hi
      have := ih hl.2 h1
      rw [upd_other _ _ _ _ (fun h => ha h.symm)]; omega

/-- **C63 (with the thread pool): the stage ends.** As long as the calling thread has not left the stage some thread can make a step, and every step reduces a measure; so
every execution ends with the calling thread leaving the stage. -/
theorem C63_terminates (ps : Mesh P) (smV smF psV : Nat) (test : Nat → Nat → Outcome P) (M : List (Nat × List Nat)) (W : List (List (Nat × List Nat)))
    (hs : ∀ x ∈ M ++ W.flatten, ∀ f ∈ x.2, Sided ps smV smF x.1 f) (hk : ((M ++ W.flatten).map Prod.fst).Nodup) (s : Par P)
    (h : Reach ps smV smF psV test M W s) :
    (¬ s.Done W → ∃ s', Step ps smV smF psV test M W s s') ∧ ∀ s', Step ps smV smF psV test M W s s' → measure W s' < measure W s := by
  have I := inv_reach hs hk h
  have hb : rank (begin s.ok : Phase P) < 2 := by unfold begin; split <;> simp [rank]
  have upd_rank : ∀ (i : Nat) (x : Phase P), (fun j => rank (upd s.worker i x j)) = upd (fun j => rank (s.worker j)) i (rank x) := by
    intro i x; funext j; by_cases hj : j = i <;> simp [upd, hj]
  constructor
  · intro hd
    cases hm : s.master with
    | idle => exact ⟨_, .startMaster s hm⟩
    | running => exact ⟨_, .endMaster s hm⟩
    | finished u =>
      have hn : s.next < W.length := by
        have := I.le
        rcases Nat.lt_or_ge s.next W.length with h | h
        · exact h
        · exact absurd ⟨⟨u, hm⟩, by omega⟩ hd
      cases hw : s.worker s.next with
      | idle => exact ⟨_, .startWorker s s.next hn hw⟩
      | running => exact ⟨_, .endWorker s s.next W[s.next] (List.getElem?_eq_getElem hn) hw⟩
      | finished t => exact ⟨_, .merge s t u hm hn hw⟩
  · intro s' hst
    cases hst with
    | startWorker i hi hidle =>
      unfold measure
      simp only
      rw [upd_rank]
      have := sum_upd (fun j => rank (s.worker j)) (List.range W.length) List.nodup_range i (List.mem_range.2 hi) (rank (begin s.ok : Phase P))
        (by simp only [hidle]; exact hb)
      omega
    | endWorker i w hi hrun =>
      unfold measure
      simp only
      rw [upd_rank]
      have := sum_upd (fun j => rank (s.worker j)) (List.range W.length) List.nodup_range i (List.mem_range.2 (List.getElem?_eq_some_iff.1 hi).1)
        (rank (.finished (endOutput (job ps smV smF test w)))) (by simp only [hrun]; simp [rank])
      omega
    | startMaster hidle =>
      unfold measure
      simp only [hidle]
      have : rank (Phase.idle : Phase P) = 2 := rfl
      omega
    | endMaster hrun =>
      unfold measure
      simp only [hrun]
      simp [rank]
    | merge t u hm hn hfin =>
      unfold measure
      simp only
      omega

/-- **C63 (uniqueness).** With different edges as keys and no face listed twice for an edge, no pair of an edge and a face gives two points. -/
theorem C63_unique (test : Nat → Nat → Outcome P) (cand : List (Nat × List Nat)) (hk : (cand.map Prod.fst).Nodup) (hf : ∀ x ∈ cand, x.2.Nodup) :
    ((hits test cand).map (fun x => (x.1, x.2.1))).Nodup := by
  have hin : ∀ (e : Nat) (fs : List Nat), fs.Nodup → ((fs.filterMap (fun f => match test e f with
      | .point p => some (e, f, p)
      | _ => none)).map (fun x => (x.1, x.2.1))).Nodup := by
    intro e fs hfs
    have hsub : ((fs.filterMap (fun f => match test e f with
      | .point p => some (e, f, p)
      | _ => none)).map (fun x => (x.1, x.2.1))).Sublist (fs.map (fun f => (e, f))) := by
      clear hfs
      induction fs with
      | nil => simp
      | cons a fs ih =>
        rw [List.filterMap_cons]
        cases test e a with
        | miss => exact ih.cons _
        | violation => exact ih.cons _
        | point p => exact ih.cons_cons _
    exact hsub.nodup (hfs.map (fun a b h => by simpa using h))
  induction cand with
  | nil => simp [hits]
  | cons x cand ih =>
    rw [List.map_cons, List.nodup_cons] at hk
    have e : hits test (x :: cand) = hits test [x] ++ hits test cand := hits_append test [x] cand
    rw [e, List.map_append, List.nodup_append]
    refine ⟨?_, ih hk.2 (fun y hy => hf y (by simp [hy])), ?_⟩
    · unfold hits; rw [List.flatMap_singleton]; exact hin x.1 x.2 (hf x (by simp))
    · intro a ha b hb hab
      obtain ⟨u, hu, rfl⟩ := List.mem_map.1 ha
      obtain ⟨v, hv, rfl⟩ := List.mem_map.1 hb
      simp only [Prod.mk.injEq] at hab
      have h1 := hits_edge hu
      simp only [List.map_cons, List.map_nil, List.mem_singleton] at h1
      have h2 := hits_edge hv
      rw [← hab.1, h1] at h2
      exact hk.1 h2

/-- What the spec calls the points of the candidate pairs: edge, face and point of each pair whose test gives a point. -/
theorem C63_points (test : Nat → Nat → Outcome P) (cand : List (Nat × List Nat)) (e f : Nat) (p : P) :
    (e, f, p) ∈ hits test cand ↔ (∃ fs, (e, fs) ∈ cand ∧ f ∈ fs) ∧ test e f = .point p := by
  unfold hits
  simp only [List.mem_flatMap, List.mem_filterMap]
  constructor
  · rintro ⟨x, hx, g, hg, h⟩
    split at h
    · rename_i q hq
      simp only [Option.some.injEq, Prod.mk.injEq] at h
      obtain ⟨rfl, rfl, rfl⟩ := h
      exact ⟨⟨x.2, hx, hg⟩, hq⟩
    · cases h
  · rintro ⟨⟨fs, hx, hf⟩, h⟩
    exact ⟨(e, fs), hx, f, hf, by simp [h]⟩

/-- The blocks of the thread pool: the last one is dealt with by the calling thread. -/
def blocks (cand : List (Nat × List Nat)) (bs : List (Nat × Nat)) : List (List (Nat × List Nat)) := bs.map (fun b => (cand.drop b.1).take (b.2 - b.1))

/-- **C63 (both variants agree).** For every number of threads, every candidate map (in whatever order it is traversed) and every execution of the thread pool: the
candidate pairs are divided among the jobs, the outcome is a violation exactly if it is one without the thread pool, and otherwise both variants record the same points
of the same edges and faces, though in another order. -/
theorem C63_same (ps : Mesh P) (smV smF psV : Nat) (test : Nat → Nat → Outcome P) (cand : List (Nat × List Nat)) (hne : cand ≠ [])
    (hs : ∀ x ∈ cand, ∀ f ∈ x.2, Sided ps smV smF x.1 f) (hk : (cand.map Prod.fst).Nodup) (avail : Nat) (ha : 0 < avail) (hsz : cand.length + 1024 ≤ 2 ^ 32) :
    ∃ bs M W, parallelForBlocks cand.length avail 1024 = .ok bs ∧ blocks cand bs = W ++ [M] ∧ (M ++ W.flatten).Perm cand ∧
      ∀ s, Reach ps smV smF psV test M W s → s.Done W →
        (s.result W = none ↔ sequential ps smV smF psV test cand = none) ∧
        ∀ t, s.result W = some t → Recorded ps smF psV (hits test (M ++ W.flatten)) t ∧
          ∃ u, sequential ps smV smF psV test cand = some u ∧ Recorded ps smF psV (hits test cand) u ∧
            (hits test (M ++ W.flatten)).Perm (hits test cand) := by
  obtain ⟨bs, hb, hpos, -, -, hflat⟩ := C17_blocks_partition_partial cand.length avail 1024 (List.length_pos_iff.2 hne) ha (by omega) hsz
  have hsl := slices_flatten cand bs hflat
  have hnil : blocks cand bs ≠ [] := by unfold blocks; simpa using List.length_pos_iff.1 hpos
  have hsplit := List.dropLast_append_getLast hnil
  have hperm : ((blocks cand bs).getLast hnil ++ ((blocks cand bs).dropLast).flatten).Perm cand := by
    have h1 : (blocks cand bs).flatten = cand := by unfold blocks; rw [← List.flatMap_def]; exact hsl
    conv_rhs => rw [← h1, ← hsplit]
    rw [List.flatten_append]
    simpa using List.perm_append_comm
  refine ⟨bs, _, _, hb, hsplit.symm, hperm, fun s hr hd => ?_⟩
  have hp := C63_parallel ps smV smF psV test _ _ (fun x hx => hs x (hperm.mem_iff.1 hx)) ((hperm.map Prod.fst).nodup_iff.2 hk) s hr hd
  have hq := C63_sequential ps smV smF psV test cand hs
  have hv : Violated test ((blocks cand bs).getLast hnil ++ ((blocks cand bs).dropLast).flatten) ↔ Violated test cand :=
    ⟨fun h => h.of_mem (fun x hx => hperm.mem_iff.1 hx), fun h => h.of_mem (fun x hx => hperm.mem_iff.2 hx)⟩
  refine ⟨by rw [hp.1, hq.1, hv], fun t ht => ⟨hp.2 t ht, ?_⟩⟩
  have hno : sequential ps smV smF psV test cand ≠ none := by
    intro h; rw [hq.1, ← hv, ← hp.1, ht] at h; cases h
  obtain ⟨u, hu⟩ := Option.ne_none_iff_exists'.1 hno
  exact ⟨u, hu, hq.2 u hu, hperm.flatMap_right _⟩

/-- **C63 (candidates from valid inputs).** When both meshes are valid (as accepted by the loader), every candidate pair of C61 is an edge and a face of different meshes
as `C63_sequential` and `C63_parallel` require. -/
theorem C63_valid {d : P} {sm cs ps : Mesh P} (M : MergeOf d sm cs ps) (hs : Preproc.ValidMesh sm.numVertices (polygons sm))
    (hc : Preproc.ValidMesh cs.numVertices (polygons cs)) {e f g : Nat} (hf : f < ps.numFaces) (he : OnFace ps e f) (hg : OtherSide sm.numFaces f g) :
    Sided ps sm.numVertices sm.numFaces e g := by
  have C := C29_consistent M.intact.reach
  have S := C61_valid_inputs M hs hc
  have hlive : ∀ f, f < ps.numFaces → LiveF ps f := fun f hf => ⟨by rw [← M.intact.numF]; exact hf, by rw [M.intact.noRemoved.2]; simp⟩
  have hlt : ∀ f, LiveF ps f → f < ps.numFaces := fun f hf => by rw [M.intact.numF]; exact hf.1
  obtain ⟨h, hh, rfl⟩ := he
  have hl := ((C.face_list f (hlive f hf)).2.2 h hh)
  have hpair : (h = halfedgeOf (edgeOf h) 0 ∧ opposite h = halfedgeOf (edgeOf h) 1) ∨ (h = halfedgeOf (edgeOf h) 1 ∧ opposite h = halfedgeOf (edgeOf h) 0) := by
    unfold halfedgeOf edgeOf opposite
    rcases Nat.mod_two_eq_zero_or_one h with h' | h'
    · left; rw [if_pos h']; omega
    · right; rw [if_neg (by omega)]; omega
  have hol := (C.opp h hl.1).1
  have live2 : LiveH ps (halfedgeOf (edgeOf h) 0) ∧ LiveH ps (halfedgeOf (edgeOf h) 1) := by
    rcases hpair with ⟨a, b⟩ | ⟨a, b⟩
    · rw [← a, ← b]; exact ⟨hl.1, hol⟩
    · rw [← a, ← b]; exact ⟨hol, hl.1⟩
  have hopp : opposite (halfedgeOf (edgeOf h) 0) = halfedgeOf (edgeOf h) 1 := by
    unfold opposite halfedgeOf; rw [if_pos (by omega)]
  have eq0 : ∀ i, i < 2 → edgeOf (halfedgeOf (edgeOf h) i) = edgeOf h := fun i hi => by unfold halfedgeOf edgeOf; omega
  have on : ∀ g', OnEdge ps (edgeOf h) g' → LiveF ps g' ∧ OnFace ps (edgeOf h) g' := by
    rintro g' (h' | h')
    · obtain ⟨a, b, -⟩ := C.chain _ _ live2.1 h'; exact ⟨a, _, b, eq0 0 (by omega)⟩
    · obtain ⟨a, b, -⟩ := C.chain _ _ live2.2 h'; exact ⟨a, _, b, eq0 1 (by omega)⟩
  have hsrc : (ps.source (halfedgeOf (edgeOf h) 0)).getD 0 = ps.edgeVertex (edgeOf h) 1 := by
    rw [(C.opp _ live2.1).2.2.2.2.2.1, hopp]; rfl
  have vert : ∀ g', OnEdge ps (edgeOf h) g' → (sm.numVertices ≤ ps.edgeVertex (edgeOf h) 1 ↔ sm.numFaces ≤ g') := by
    intro g' hg'
    obtain ⟨hlv, hon⟩ := on g' hg'
    have hv := (edge_in_face M.intact.reach hlv hon).2
    have hlt := hlt g' hlv
    rw [M.numF] at hlt
    by_cases h' : g' < sm.numFaces
    · rw [M.smFaces g' h'] at hv
      have := (hs.1 _ (List.mem_map.2 ⟨g', List.mem_range.2 h', rfl⟩)).2.2 _ hv
      omega
    · have hr := M.cmFaces (g' - sm.numFaces) (by omega)
      rw [show sm.numFaces + (g' - sm.numFaces) = g' by omega] at hr
      rw [hr.mem_iff, List.mem_map] at hv
      obtain ⟨v, -, hv⟩ := hv
      omega
  have used : OnEdge ps (edgeOf h) f := by
    rcases hpair with ⟨a, -⟩ | ⟨a, -⟩
    · left; rw [← a]; exact hl.2
    · right; rw [← a]; exact hl.2
  have cutE : CutEdge ps sm.numFaces (edgeOf h) ↔ sm.numVertices ≤ ps.edgeVertex (edgeOf h) 1 :=
    ⟨fun ⟨g', hg', hle⟩ => (vert g' hg').2 hle, fun hle => ⟨f, used, (vert f used).1 hle⟩⟩
  refine ⟨⟨f, used⟩, ?_, fun g' hg' => by rw [cutE, vert g' hg'], by rw [hsrc, cutE], ?_⟩
  · rintro g' ⟨h0, h1⟩
    obtain ⟨a, b, -⟩ := C.chain _ _ live2.1 h0
    obtain ⟨-, b', -⟩ := C.chain _ _ live2.2 h1
    rw [← hopp] at b'
    exact S g' a _ b b'
  · rw [cutE, vert f used]
    unfold OtherSide at hg
    omega

-- non-vacuity: a triangle (face 0, edges 0 1 2) and a triangle of the cut mesh (face 1, edges 3 4 5) that pass through each other: edge 0 meets face 1 and edge 3 meets face 0
/-- Two triangles with separate vertices. -/
def demo2 : Mesh Unit := (runAll (Mesh.empty ()) [.addVertex (), .addVertex (), .addVertex (), .addVertex (), .addVertex (), .addVertex (),
  .addFace [0, 1, 2], .addFace [3, 4, 5]]).getD (Mesh.empty ())

/-- Test outcomes for `demo2`: the points are numbers. -/
def demoTest (e f : Nat) : Outcome Unit := if (e, f) = (0, 1) ∨ (e, f) = (3, 0) then .point () else .miss

def demoRun : Tables Unit := (sequential demo2 3 1 6 demoTest [(0, [1]), (1, [1]), (3, [0]), (4, [0])]).getD .empty

example : (sequential demo2 3 1 6 demoTest [(0, [1]), (1, [1]), (3, [0]), (4, [0])]).isSome = true := by decide +kernel
example : demoRun.reg = [(0, 1), (3, 0)] ∧ demoRun.border = [7] ∧ demoRun.cut (0, 1) = [6, 7] ∧ demoRun.partialCut = true := by decide +kernel
example : demoRun.edges 0 = [6] ∧ demoRun.edges 1 = [] ∧ demoRun.edges 3 = [7] ∧ demoRun.faces 0 = [6, 7] ∧ demoRun.faces 1 = [6, 7] := by decide +kernel

example : Sided demo2 3 1 0 1 ∧ Sided demo2 3 1 3 0 := by
  have f0 : ∀ e, e = 0 ∨ e = 3 → demo2.face (halfedgeOf e 0) = some (e / 3) ∧ demo2.face (halfedgeOf e 1) = none ∧
      ((demo2.source (halfedgeOf e 0)).getD 0 = 0 ∧ e = 0 ∨ (demo2.source (halfedgeOf e 0)).getD 0 = 3 ∧ e = 3) := by
    rintro e (rfl | rfl) <;> decide +kernel
  have on : ∀ e g, e = 0 ∨ e = 3 → (OnEdge demo2 e g ↔ g = e / 3) := by
    intro e g he
    unfold OnEdge
    rw [(f0 e he).1, (f0 e he).2.1]
    simp [eq_comm]
  have cu : ∀ e, e = 0 ∨ e = 3 → (CutEdge demo2 1 e ↔ e = 3) := by
    intro e he
    unfold CutEdge
    constructor
    · rintro ⟨g, h, h'⟩; rw [on e g he] at h; omega
    · rintro rfl; exact ⟨1, (on 3 1 (.inr rfl)).2 rfl, by omega⟩
  have key : ∀ e, e = 0 ∨ e = 3 → Sided demo2 3 1 e (if e = 0 then 1 else 0) := by
    intro e he
    refine ⟨⟨e / 3, (on e _ he).2 rfl⟩, ?_, ?_, ?_, ?_⟩
    · rintro g ⟨-, h⟩; rw [(f0 e he).2.1] at h; cases h
    · intro g hg; rw [on e g he] at hg; rw [cu e he]; omega
    · rw [cu e he]; rcases (f0 e he).2.2 with ⟨h, h'⟩ | ⟨h, h'⟩ <;> rw [h] <;> omega
    · rw [cu e he]; rcases he with rfl | rfl <;> simp
  exact ⟨key 0 (.inl rfl), key 3 (.inr rfl)⟩

end Mcut.Registry
