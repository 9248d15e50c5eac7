import Verif.Lemmas.C21

/-! What the threads that copy faces find in the prefix-sum array (for C21–C23). -/
namespace Mcut.PrefixSum
open Mcut.Spec Mcut.Sched

/-- Threads before a thread that has passed `get()` have published their last value. -/
def Passed (n : Nat) (s : St) : Prop := ∀ i, 0 < i → i < n → s.pc i ≠ .start → s.pc i ≠ .scanned → s.endv (i - 1) ≠ none

theorem passed_step (c : Nat → List W) (n : Nat) (hc : ∀ i, i < n → c i ≠ []) (s : St) (i : Nat) (s' : St)
    (hinv : Inv c n s) (hp : Passed n s) (hs : step n s i = some s') : Passed n s' := by
  have hinv' := inv_step c n hc s i s' hinv hs
  -- endv never goes back to none
  have hmono : ∀ j, j + 1 < n → s.endv j ≠ none → s'.endv j ≠ none := by
    intro j hj hne
    have hg := hinv' j (by omega)
    unfold step at hs
    split at hs
    case isFalse => cases hs
    case isTrue hi =>
    split at hs
    · cases hs; exact hne
    · rename_i hpc
      split at hs
      · cases hs
        simp only; split
        · by_cases hji : j = i
          · subst hji
            simp only [Good, upd_same] at hg
            have := hg.2 hj
            simp only [if_pos hj, upd_same] at this
            rw [upd_same, this]; simp
          · rw [upd_other _ _ _ _ hji]; exact hne
        · exact hne
      · split at hs
        · cases hs
        · cases hs
          simp only; split
          · by_cases hji : j = i
            · subst hji
              simp only [Good, upd_same] at hg
              have := hg.2.2.2.2 hj
              simp only [if_pos hj, upd_same] at this
              rw [upd_same, this]; simp
            · rw [upd_other _ _ _ _ hji]; exact hne
          · exact hne
    · split at hs <;> · cases hs; exact hne
    · cases hs
  intro j hj0 hjn h1 h2
  by_cases hold : s.pc j ≠ .start ∧ s.pc j ≠ .scanned
  · exact hmono _ (by omega) (hp j hj0 hjn hold.1 hold.2)
  · unfold step at hs
    split at hs
    case isFalse => cases hs
    case isTrue hi =>
    by_cases hji : j = i
    · subst hji
      split at hs
      · cases hs; simp at h2
      · rename_i hpc
        rw [if_neg (by omega)] at hs
        split at hs
        · cases hs
        · rename_i a ha
          cases hs
          simp only; split
          · rw [upd_other _ _ _ _ (by omega), ha]; simp
          · rw [ha]; simp
      · rename_i hpc; exact absurd ⟨by rw [hpc]; simp, by rw [hpc]; simp⟩ hold
      · cases hs
    · exfalso
      have hpc : s'.pc j = s.pc j := by
        split at hs
        · cases hs; exact upd_other _ _ _ _ hji
        · split at hs
          · cases hs; exact upd_other _ _ _ _ hji
          · split at hs
            · cases hs
            · cases hs; exact upd_other _ _ _ _ hji
        · split at hs <;> · cases hs; exact upd_other _ _ _ _ hji
        · cases hs
      rw [hpc] at h1 h2; exact hold ⟨h1, h2⟩

theorem reach_passed (c : Nat → List W) (n : Nat) (hc : ∀ i, i < n → c i ≠ []) (s : St)
    (hr : Reach (step n) (init c) s) : Passed n s := by
  have : Inv c n s ∧ Passed n s := by
    refine Reach.inv (P := fun s => Inv c n s ∧ Passed n s) ?_ ⟨inv_init c n, ?_⟩ hr
    · intro s i s' ⟨h1, h2⟩ hs
      exact ⟨inv_step c n hc s i s' h1 hs, passed_step c n hc s i s' h1 h2 hs⟩
    · intro i _ _ h; simp [init] at h
  exact this.2

/-- When the call has returned, the first thread has finished. -/
theorem first_done (c : Nat → List W) (n : Nat) (hn : 0 < n) (hc : ∀ i, i < n → c i ≠ []) (s : St)
    (hr : Reach (step n) (init c) s) (hret : returned n s) : s.pc 0 = .done := by
  have hinv := reach_inv c n hc s hr
  have hp := reach_passed c n hc s hr
  have key : ∀ k, k < n → s.pc (n - 1 - k) ≠ .start ∧ s.pc (n - 1 - k) ≠ .scanned := by
    intro k
    induction k with
    | zero => intro _; unfold returned at hret; simp [hret]
    | succ k ih =>
      intro hk
      obtain ⟨h1, h2⟩ := ih (by omega)
      have he := hp (n - 1 - k) (by omega) (by omega) h1 h2
      have e : n - 1 - k - 1 = n - 1 - (k + 1) := by omega
      rw [e] at he
      have hg := hinv (n - 1 - (k + 1)) (by omega)
      constructor
      · intro h; simp only [Good, h] at hg; exact he hg.2
      · intro h; simp only [Good, h] at hg; exact he hg.2
  have h0 := key (n - 1) (by omega)
  rw [Nat.sub_self] at h0
  have hg := hinv 0 hn
  cases hpc : s.pc 0 with
  | start => exact absurd hpc h0.1
  | scanned => exact absurd hpc h0.2
  | adding k a => simp only [Good, hpc] at hg; exact absurd rfl hg.1
  | done => rfl

theorem good_length (c : Nat → List W) (n : Nat) (s : St) (i : Nat) (h : Good c n s i) : (s.data i).length = (c i).length := by
  cases hpc : s.pc i with
  | start => simp only [Good, hpc] at h; rw [h.1]
  | scanned => simp only [Good, hpc] at h; rw [h.1, prefixSums_length]
  | adding k a => exact adding_length c n s i k a hpc h
  | done => simp only [Good, hpc] at h; rw [h.1, List.length_map, prefixSums_length]

theorem flatMap_get {α : Type} (f g : Nat → List α) (n j : Nat) (hj : j < n) (hl : ∀ i, i < n → (f i).length = (g i).length)
    (he : f j = g j) (hne : g j ≠ []) :
    ((List.range n).flatMap f)[((List.range j).map (fun i => (g i).length)).sum]? =
      ((List.range n).flatMap g)[((List.range j).map (fun i => (g i).length)).sum]? := by
  obtain ⟨m, rfl⟩ : ∃ m, n = j + (m + 1) := ⟨n - j - 1, by omega⟩
  have e : List.range (j + (m + 1)) = List.range j ++ (j :: (List.range m).map (fun x => j + (x + 1))) := by
    rw [List.range_add, List.range_succ_eq_map]; simp [Function.comp_def]
  have l1 : ∀ h : Nat → List α, (∀ i, i < j → (h i).length = (g i).length) → ((List.range j).flatMap h).length = ((List.range j).map (fun i => (g i).length)).sum := by
    intro h hh
    rw [List.length_flatMap]; congr 1
    apply List.map_congr_left; intro i hi; exact hh i (List.mem_range.1 hi)
  have lf := l1 f (fun i hi => hl i (by omega))
  have lg := l1 g (fun i hi => rfl)
  rw [e]
  simp only [List.flatMap_append, List.flatMap_cons]
  have : 0 < (g j).length := List.length_pos_iff.2 hne
  rw [he]
  generalize ((List.range j).map (fun i => (g i).length)).sum = q at *
  rw [List.getElem?_append_right (by omega), lf, List.getElem?_append_left (by omega)]
  rw [List.getElem?_append_right (by omega), lg, List.getElem?_append_left (by omega)]

/-- A finished chunk starts with its final prefix sum. -/
theorem chunk_start (c : Nat → List W) (n : Nat) (hc : ∀ i, i < n → c i ≠ []) (s : St)
    (hr : Reach (step n) (init c) s) (j : Nat) (hj : j < n) (hd : s.pc j = .done) :
    (memory n s)[((List.range j).map (fun i => (c i).length)).sum]? =
      (prefixSums ((List.range n).flatMap c))[((List.range j).map (fun i => (c i).length)).sum]? := by
  have hinv := reach_inv c n hc s hr
  have hl : ∀ i, ((prefixSums (c i)).map (· + off c i)).length = (c i).length := by
    intro i; rw [List.length_map, prefixSums_length]
  have := flatMap_get s.data (fun i => (prefixSums (c i)).map (· + off c i)) n j hj
    (fun i hi => by rw [good_length c n s i (hinv i hi), hl]) (by
      have h := hinv j hj; simp only [Good, hd] at h; exact h.1) (by
      intro h; have := congrArg List.length h; rw [hl] at this; exact hc j hj (List.eq_nil_of_length_eq_zero this))
  simp only [hl] at this
  rw [flat_done] at this
  exact this

end Mcut.PrefixSum

namespace Mcut.CC
open Mcut.Sched
variable {D F : Type}

theorem consec_start : ∀ (bs : List (Nat × Nat)) (a n : Nat), Consec a bs n → ∀ j b, bs[j]? = some b →
    ((List.range j).map (fun i => match bs[i]? with | some b => b.2 - b.1 | none => 0)).sum + a = b.1 := by
  intro bs
  induction bs with
  | nil => intro a n _ j b h; simp at h
  | cons x bs ih =>
    intro a n ⟨h1, h2, h3, h4⟩ j b hb
    cases j with
    | zero => simp at hb; subst hb; simp [h1]
    | succ j =>
      have := ih _ _ h4 j b (by simpa using hb)
      rw [List.range_succ_eq_map]
      simp only [List.map_cons, List.map_map, List.sum_cons, List.getElem?_cons_zero, Function.comp_def, Nat.succ_eq_add_one, List.getElem?_cons_succ]
      subst h1
      rw [Nat.add_right_comm]
      have e : x.2 - x.1 + x.1 = x.2 := Nat.sub_add_cancel h2
      exact (congrArg (· + _) e).trans ((Nat.add_comm _ _).trans this)

theorem consec_bound : ∀ (bs : List (Nat × Nat)) (a n : Nat), Consec a bs n → ∀ b ∈ bs, b.1 ≤ b.2 ∧ b.2 ≤ n := by
  intro bs
  induction bs with
  | nil => simp
  | cons b bs ih =>
    intro a n ⟨e1, e2, e3, e4⟩ x hx
    rcases List.mem_cons.1 hx with rfl | hx
    · exact ⟨by omega, e3⟩
    · exact ih _ _ e4 x hx

/-- The number of blocks. -/
theorem blocks_count (n avail m : Nat) (hn : 0 < n) (ha : 0 < avail) (hm : 0 < m) (hb : n + m ≤ 2 ^ 32) (bs : List (Nat × Nat))
    (h : parallelForBlocks n avail m = .ok bs) :
    bs = blocksFrom 0 (min avail ((n + m - 1) / m) - 1) (n / min avail ((n + m - 1) / m)) n ∧ bs.length = min avail ((n + m - 1) / m) := by
  have h1 : (n + m - 1) % 2 ^ 32 = n + m - 1 := Nat.mod_eq_of_lt (by omega)
  have h2 : 0 < (n + m - 1) / m := Nat.div_pos (by omega) hm
  have ha' : avail ≠ 0 := by omega
  unfold parallelForBlocks schedulingParams at h
  rw [if_neg (by omega), h1] at h
  simp only [ne_eq, ha', not_false_eq_true, if_true] at h
  split at h
  · simp at h
  · rename_i p hp
    split at hp <;> [(simp at hp; done); skip]
    split at hp <;> [(simp at hp; done); skip]
    split at hp <;> [(simp at hp; done); skip]
    split at hp <;> [(simp at hp; done); skip]
    injection hp with hp; subst hp
    injection h with h; subst h
    refine ⟨rfl, ?_⟩
    rw [blocksFrom_length]; simp only; omega

/-- The value that a thread of the copy reads is final. -/
theorem view_ok (sizes : List Nat) (avail m : Nat) (ps : Nat × Nat → List Nat) (hl : 0 < sizes.length) (ha : 0 < avail) (hm : 0 < m)
    (hov : sizes.length + m ≤ 2 ^ 32) (hov2 : sizes.length + 1024 ≤ 2 ^ 32) (hs : sizes.sum < 2 ^ 32)
    (hv : PsViews sizes avail m ps)
    (safe : avail ≤ 2 ∨ sizes.length ≤ m ∨ min avail ((sizes.length + m - 1) / m) = min avail ((sizes.length + 1024 - 1) / 1024))
    (bs : List (Nat × Nat)) (hbs : parallelForBlocks sizes.length avail m = .ok bs) (b : Nat × Nat) (hb : b ∈ bs) :
    startOf (ps b) sizes b = startOf (sums 0 sizes) sizes b := by
  obtain ⟨i, hi, rfl⟩ := List.getElem_of_mem hb
  obtain ⟨bt, s, hbt, hr, hret, hown, hps⟩ := hv bs hbs i bs[i] (by simp [hi])
  unfold startOf
  rw [hps]
  obtain ⟨hc14, hn14⟩ := blocks_count _ _ _ hl ha hm hov bs hbs
  obtain ⟨hc10, hn10⟩ := blocks_count _ _ _ hl ha (by decide) hov2 bt hbt
  obtain ⟨bt', hbt', hcons⟩ := blocks_ok sizes.length avail 1024 hl ha (by decide) hov2
  rw [hbt] at hbt'; injection hbt' with hbt'; subst hbt'
  let xs := sizes.map (BitVec.ofNat 32)
  have hxl : xs.length = sizes.length := by simp [xs]
  have hpos : 0 < bt.length := by
    rw [hn10]; have : 0 < (sizes.length + 1024 - 1) / 1024 := Nat.div_pos (by omega) (by decide)
    omega
  -- the chunks are non-empty and make up the whole
  have hflat : (List.range bt.length).flatMap (PrefixSum.chunksOf xs bt) = xs ∧ ∀ i, i < bt.length → PrefixSum.chunksOf xs bt i ≠ [] := by
    obtain ⟨p, hp, hpos, hle, hb, hbe, -⟩ := schedulingParams_ok xs.length avail 1024 (by omega) ha (by decide) (by omega)
    have hbt2 := hbt
    rw [← hxl] at hbt2
    simp only [parallelForBlocks, hp] at hbt2; injection hbt2 with hbt2
    have h1 : p.numThreads * p.blockSize ≤ xs.length := by
      rw [hbe]; exact Nat.mul_div_le xs.length p.numThreads
    have h2 : p.numThreads * p.blockSize = (p.numThreads - 1) * p.blockSize + p.blockSize := by
      have : p.numThreads = (p.numThreads - 1) + 1 := by omega
      rw [this, Nat.succ_mul]; simp
    have := PrefixSum.chunksOf_flat xs 0 (p.numThreads - 1) p.blockSize (by omega) hb
    rw [List.drop_zero] at this
    rw [← hbt2, blocksFrom_length]; exact this
  have hlen : ∀ i, (PrefixSum.chunksOf xs bt i).length = (match bt[i]? with | some b => b.2 - b.1 | none => 0) := by
    intro i
    unfold PrefixSum.chunksOf
    cases h : bt[i]? with
    | none => rfl
    | some b =>
      have := consec_bound _ _ _ hcons b (List.mem_of_getElem? h)
      simp only [List.length_take, List.length_drop]; omega
  -- it is enough that the chunk starting at our position is finished
  have key : ∀ j, (hj : j < bt.length) → s.pc j = .done → bt[j].1 = bs[i].1 →
      ((PrefixSum.memory bt.length s).map BitVec.toNat).getD bs[i].1 0 = (sums 0 sizes).getD bs[i].1 0 := by
    intro j hj hd hpos
    have h1 := PrefixSum.chunk_start _ _ hflat.2 s hr j hj hd
    have h2 := consec_start _ _ _ hcons j bt[j] (by simp [hj])
    rw [hflat.1] at h1
    have h3 : (List.range j).map (fun i => (PrefixSum.chunksOf xs bt i).length) = (List.range j).map (fun i => match bt[i]? with | some b => b.2 - b.1 | none => 0) := by
      apply List.map_congr_left; intro i _; exact hlen i
    rw [h3, ← Nat.add_zero (List.sum _), h2, hpos] at h1
    rw [← sums_prefix _ hs, List.getD_eq_getElem?_getD, List.getD_eq_getElem?_getD, List.getElem?_map, List.getElem?_map, h1]
  congr 1
  by_cases h1 : avail ≤ 2
  · -- all threads are done
    rw [PrefixSum.C18_at_return_partial _ _ hpos (by omega) hflat.2 s hr hret, hflat.1, sums_prefix _ hs]
  by_cases h2 : sizes.length ≤ m
  · have h3 : (sizes.length + m - 1) / m = 1 := by
      apply Nat.div_eq_of_lt_le <;> omega
    rw [h3] at hc14 hn14
    have h4 : min avail 1 = 1 := by omega
    rw [h4] at hc14 hn14
    simp only [Nat.sub_self, blocksFrom] at hc14
    have hi0 : i = 0 := by omega
    subst hi0
    have e : bs[0].1 = 0 := by simp [hc14]
    refine key 0 hpos (PrefixSum.first_done _ _ hpos hflat.2 s hr hret) ?_
    have := consec_start _ _ _ hcons 0 bt[0] (by simp [hpos])
    rw [e]; simpa using this.symm
  · have h3 := (safe.resolve_left h1).resolve_left h2
    rw [h3] at hc14 hn14
    have heq : bs = bt := by rw [hc14, hc10]
    subst heq
    refine key i hi ?_ rfl
    by_cases hlast : i + 1 < bs.length
    · exact hown i (by rw [if_pos hlast]) hi
    · have : i = bs.length - 1 := by omega
      rw [this]; exact hret

theorem face_view {c : Comp D F} (ok : Ok c) {env : Env} (he : EnvOk c .face env) (safe : SafeFace c.faces.length env.avail) (b : Nat × Nat)
    (hb : ∀ bs, parallelForBlocks c.faces.length env.avail (1 <<< 14) = .ok bs → b ∈ bs) :
    startOf (env.ps b) (c.faces.map List.length) b = startOf (sums 0 (c.faces.map List.length)) (c.faces.map List.length) b := by
  have hl : 0 < c.faces.length := List.length_pos_iff.2 ok.faces
  have B := ok.bound.1
  obtain ⟨bs, hbs, -⟩ := blocks_ok c.faces.length env.avail (2 ^ 14) hl he.avail (by decide) B
  have e : (1 <<< 14 : Nat) = 2 ^ 14 := by decide
  rw [e] at hb
  refine view_ok _ env.avail (2 ^ 14) env.ps (by simpa using hl) he.avail (by decide) (by simpa using B) (by simp; omega) ok.total.1 (he.ps.1 rfl) ?_ bs (by simpa using hbs) b (hb bs hbs)
  rw [List.length_map]
  rcases safe with h | h | h
  · exact Or.inl h
  · exact Or.inr (Or.inl h)
  · refine Or.inr (Or.inr ?_)
    have : env.avail ≤ (c.faces.length + 2 ^ 14 - 1) / 2 ^ 14 := by
      rw [Nat.le_div_iff_mul_le (by decide)]
      have ha := he.avail
      obtain ⟨a, ha⟩ : ∃ a, env.avail = a + 1 := ⟨env.avail - 1, by omega⟩
      rw [ha] at h ⊢
      simp only [Nat.add_sub_cancel] at h
      omega
    have : env.avail ≤ (c.faces.length + 1024 - 1) / 1024 := by
      refine Nat.le_trans this ?_
      omega
    omega

theorem adj_view {c : Comp D F} (ok : Ok c) {env : Env} (he : EnvOk c .adj env) (b : Nat × Nat)
    (hb : ∀ bs, parallelForBlocks c.adj.length env.avail 1024 = .ok bs → b ∈ bs) :
    startOf (env.ps b) (c.adj.map List.length) b = startOf (sums 0 (c.adj.map List.length)) (c.adj.map List.length) b := by
  have hl : 0 < c.adj.length := by rw [ok.adj]; exact List.length_pos_iff.2 ok.faces
  have B := ok.bound.1
  rw [← ok.adj] at B
  obtain ⟨bs, hbs, -⟩ := blocks_ok c.adj.length env.avail 1024 hl he.avail (by decide) (by omega)
  exact view_ok _ env.avail 1024 env.ps (by simpa using hl) he.avail (by decide) (by simp; omega) (by simp; omega) ok.total.2 (he.ps.2 rfl)
    (Or.inr (Or.inr rfl)) bs (by simpa using hbs) b (hb bs hbs)

/-- One thread: the array is complete. -/
theorem psViews_one (sizes : List Nat) (m : Nat) (h : sizes ≠ []) (hov : sizes.length + 1024 ≤ 2 ^ 32) (hs : sizes.sum < 2 ^ 32) :
    PsViews sizes 1 m (fun _ => sums 0 sizes) := by
  intro bs _ i b _
  have hl : 0 < sizes.length := List.length_pos_iff.2 h
  obtain ⟨bt, hbt, hcons⟩ := blocks_ok sizes.length 1 1024 hl (by decide) (by decide) hov
  obtain ⟨hc, hn⟩ := blocks_count _ _ _ hl (by decide) (by decide) hov bt hbt
  have h1 : min 1 ((sizes.length + 1024 - 1) / 1024) = 1 := by
    have : 0 < (sizes.length + 1024 - 1) / 1024 := Nat.div_pos (by omega) (by decide)
    omega
  rw [h1] at hc hn
  simp only [Nat.sub_self, blocksFrom] at hc
  subst hc
  let c := PrefixSum.chunksOf (sizes.map (BitVec.ofNat 32)) [(0, sizes.length)]
  have hc0 : c 0 = sizes.map (BitVec.ofNat 32) := by
    simp only [c, PrefixSum.chunksOf, List.getElem?_cons_zero, List.drop_zero]
    rw [List.take_of_length_le (by simp)]
  have hex : ∃ s, runSched (PrefixSum.step 1) (PrefixSum.init c) [0, 0] = some s ∧ s.pc 0 = .done ∧ s.data 0 = PrefixSum.partialSum (c 0) := by
    refine ⟨_, by simp [runSched, PrefixSum.step, PrefixSum.init, upd]; rfl, ?_, ?_⟩ <;> simp [upd]
  obtain ⟨s, hr, hd, hdat⟩ := hex
  refine ⟨_, s, hbt, ⟨_, hr⟩, hd, ?_, ?_⟩
  · intro i _ hi
    have : i = 0 := by simpa using hi
    subst this; exact hd
  · simp only [List.length_cons, List.length_nil, PrefixSum.memory, Nat.zero_add, List.range_one, List.flatMap_cons, List.flatMap_nil, List.append_nil]
    rw [hdat, hc0, PrefixSum.partialSum_eq, sums_prefix _ hs]

theorem sums_rep (x : Nat) : ∀ (n k : Nat), k < n → ∀ a, (sums a (List.replicate n x)).getD k 0 = a + (k + 1) * x := by
  intro n
  induction n with
  | zero => intro k h; omega
  | succ n ih =>
    intro k hk a
    rw [List.replicate_succ]
    cases k with
    | zero => simp [sums]
    | succ k =>
      simp only [sums, List.getD_cons_succ]
      rw [ih k (by omega)]; ring

/-- Faces, all with three vertices, delivered in the default winding order: the first store. -/
theorem faceOuter_head (n off m : Nat) (h : 0 < m) :
    ∃ l, (faceOuter false n off (List.replicate m [0, 0, 0]) : List (Write Nat Nat)) = (4 * off, .u32 0) :: l := by
  obtain ⟨m, rfl⟩ : ∃ k, m = k + 1 := ⟨m - 1, by omega⟩
  rw [List.replicate_succ]
  simp only [faceOuter]
  exact ⟨_, rfl⟩

/-- The race of the face copy: `6 * M` faces, in three chunks for the sum and in two blocks for the copy. -/
theorem face_race (M : Nat) (hM : 2 ≤ M) (hM2 : 6 * M * 3 < 2 ^ 32)
    (hbs : parallelForBlocks (6 * M) 3 1024 = .ok [(0, 2 * M), (2 * M, 4 * M), (4 * M, 6 * M)])
    (hbf : parallelForBlocks (6 * M) 3 (1 <<< 14) = .ok [(0, 3 * M), (3 * M, 6 * M)]) :
    ∃ (env : Env) (th : List (List (Write Nat Nat))), env.avail = 3 ∧ PsViews ((bigComp (6 * M)).faces.map List.length) 3 (2 ^ 14) env.ps ∧
      (query (bigComp (6 * M)) Cache.empty env .face (byteSize (elems (bigComp (6 * M)) false [] [] .face)) true true).2 = .writes th ∧
      ¬ th.flatten.Perm (arrayWrites (unit .face) (elems (bigComp (6 * M)) false [] [] .face)) := by
  have hsz : (bigComp (6 * M)).faces.map List.length = List.replicate (6 * M) 3 := by simp [bigComp]
  let xs : List PrefixSum.W := List.replicate (6 * M) 3
  have hxs : (List.replicate (6 * M) 3).map (BitVec.ofNat 32) = xs := by simp [xs]
  let bs : List (Nat × Nat) := [(0, 2 * M), (2 * M, 4 * M), (4 * M, 6 * M)]
  have hch : ∀ i, i < 3 → PrefixSum.chunksOf xs bs i = List.replicate (2 * M) 3 := by
    intro i hi
    have : i = 0 ∨ i = 1 ∨ i = 2 := by omega
    rcases this with rfl | rfl | rfl <;> simp [PrefixSum.chunksOf, xs, bs] <;> omega
  have hne : ∀ i, i < 3 → PrefixSum.chunksOf xs bs i ≠ [] := by
    intro i hi; rw [hch i hi]; simp; omega
  obtain ⟨s, hr, hret, hd0, a, hd1⟩ := PrefixSum.race (PrefixSum.chunksOf xs bs) (hne 0 (by decide)) (hne 1 (by decide))
  have hdone := PrefixSum.first_done _ 3 (by decide) hne s hr hret
  rw [hch 0 (by decide)] at hd0
  rw [hch 1 (by decide)] at hd1
  have e : PrefixSum.memory 3 s = s.data 0 ++ (s.data 1 ++ s.data 2) := by simp [PrefixSum.memory, List.range_succ]
  have l0 : (s.data 0).length = 2 * M := by rw [hd0, PrefixSum.partialSum_eq, PrefixSum.prefixSums_length]; simp
  have l1 : (s.data 1).length = 2 * M := by rw [hd1, List.length_modify, PrefixSum.partialSum_eq, PrefixSum.prefixSums_length]; simp
  let ps := (PrefixSum.memory 3 s).map BitVec.toNat
  -- local sums of a chunk
  have hloc : ∀ k, k < 2 * M → ((PrefixSum.partialSum (List.replicate (2 * M) (3 : PrefixSum.W))).map BitVec.toNat)[k]? = some ((k + 1) * 3) := by
    intro k hk
    have e1 : List.replicate (2 * M) (3 : PrefixSum.W) = (List.replicate (2 * M) 3).map (BitVec.ofNat 32) := by simp
    rw [PrefixSum.partialSum_eq, e1, sums_prefix _ (by simp; omega)]
    have h2 := sums_rep 3 (2 * M) k hk 0
    have h3 : k < (sums 0 (List.replicate (2 * M) 3)).length := by rw [sums_length]; simpa using hk
    rw [List.getD_eq_getElem?_getD, List.getElem?_eq_getElem h3] at h2
    rw [List.getElem?_eq_getElem h3]
    simp at h2; rw [h2]
  have hps0 : ps.getD 0 0 = 3 := by
    have := hloc 0 (by omega)
    simp only [ps, e, List.map_append]
    rw [List.getD_eq_getElem?_getD, List.getElem?_append_left (by simp; omega), hd0, this]; rfl
  have hps1 : ps.getD (3 * M) 0 = (M + 1) * 3 := by
    have h1 := hloc M (by omega)
    simp only [ps, e, List.map_append]
    rw [List.getD_eq_getElem?_getD, List.getElem?_append_right (by simp; omega), List.getElem?_append_left (by simp; omega), List.length_map, l0,
      show 3 * M - 2 * M = M by omega, hd1, List.getElem?_map, List.getElem?_modify]
    rw [List.getElem?_map] at h1
    simp only [List.length_replicate]
    have hno : ¬ 2 * M - 1 = M := by omega
    simp only [hno, if_false]
    cases hx : (PrefixSum.partialSum (List.replicate (2 * M) (3 : PrefixSum.W)))[M]? with
    | none => rw [hx] at h1; simp at h1
    | some v => rw [hx] at h1; simp at h1; simp [h1]
  let env : Env := ⟨3, false, fun _ => ps, [], [], []⟩
  let c := bigComp (6 * M)
  refine ⟨env, [faceOuter false (6 * M * 3) (startOf ps (List.replicate (6 * M) 3) (0, 3 * M)) (slice c.faces (0, 3 * M)),
    faceOuter false (6 * M * 3) (startOf ps (List.replicate (6 * M) 3) (3 * M, 6 * M)) (slice c.faces (3 * M, 6 * M))], rfl, ?_, ?_, ?_⟩
  · intro bf hbf' i b hb
    rw [hsz, List.length_replicate] at hbf'
    have : bf = [(0, 3 * M), (3 * M, 6 * M)] := by
      have e1 : (1 <<< 14 : Nat) = 2 ^ 14 := by decide
      rw [e1] at hbf; rw [hbf] at hbf'; injection hbf' with h; exact h.symm
    subst this
    refine ⟨bs, s, by rw [hsz, List.length_replicate]; exact hbs, ?_, hret, ?_, rfl⟩
    · rw [hsz, hxs]; exact hr
    · intro j hj _
      have hi : i < 2 := by
        have := (List.getElem?_eq_some_iff.1 hb).1; simpa using this
      simp only [List.length_cons, List.length_nil] at hj
      split at hj
      · injection hj with hj
        have : j = 0 := by omega
        subst this; exact hdone
      · simp at hj
  · have hf : (bigComp (6 * M)).faces.length = 6 * M := by simp [bigComp]
    have hn : byteSize (elems (bigComp (6 * M)) false [] [] .face) = (6 * M * 3) * 4 := by
      simp only [elems]; rw [byteSize_u32]
      simp [bigComp]
    simp only [query, Bool.true_eq_false, if_false]
    rw [hn, if_neg (by omega)]
    simp only [fillSizes, Cache.empty, hf, env, hbs, par, hbf, Option.getD_some, hsz, List.map_cons, List.map_nil, c]
    rw [show 6 * M * 3 * 4 / 4 = 6 * M * 3 by omega]
  · have s0 : startOf ps (List.replicate (6 * M) 3) (0, 3 * M) = 0 := by
      simp only [startOf, hps0]; rw [List.getD_eq_getElem?_getD, List.getElem?_replicate, if_pos (by omega)]; rfl
    have s1 : startOf ps (List.replicate (6 * M) 3) (3 * M, 6 * M) = M * 3 := by
      simp only [startOf, hps1]; rw [List.getD_eq_getElem?_getD, List.getElem?_replicate, if_pos (by omega)]; simp; omega
    have e0 : slice c.faces (0, 3 * M) = List.replicate M [0, 0, 0] ++ List.replicate (2 * M) [0, 0, 0] := by
      rw [List.replicate_append_replicate]; simp [slice, c, bigComp]; omega
    have e1 : slice c.faces (3 * M, 6 * M) = List.replicate (3 * M) [0, 0, 0] := by simp [slice, c, bigComp]; omega
    have hfirst : ∃ l1 l2, (faceOuter false (6 * M * 3) 0 (List.replicate M [0, 0, 0] ++ List.replicate (2 * M) [0, 0, 0]) : List (Write Nat Nat)) =
        l1 ++ (4 * (M * 3), .u32 0) :: l2 := by
      have h1 : (faceOuter false (6 * M * 3) 0 (List.replicate M [0, 0, 0] ++ List.replicate (2 * M) [0, 0, 0]) : List (Write Nat Nat)) = _ :=
        faceOuter_full false (6 * M * 3) _ 0 (by simp; omega)
      rw [h1, List.map_append, List.flatten_append, wrAt_append]
      obtain ⟨k, hk⟩ : ∃ k, 2 * M = k + 1 := ⟨2 * M - 1, by omega⟩
      rw [hk, List.replicate_succ]
      have hlen : ((List.replicate M [0, 0, 0]).map (fun f => (if false = true then f.reverse else f).map (Cell.u32 : Nat → Cell Nat Nat))).flatten.length = M * 3 := by
        simp
      rw [hlen, Nat.zero_add]
      rw [List.map_cons, List.flatten_cons]
      simp only [Bool.false_eq_true, if_false, List.map_cons, List.cons_append, wrAt_cons]
      exact ⟨_, _, rfl⟩
    rw [s0, s1, e0, e1]
    obtain ⟨l, hl⟩ := faceOuter_head (6 * M * 3) (M * 3) (3 * M) (by omega)
    obtain ⟨l1, l2, h12⟩ := hfirst
    rw [hl, h12]
    intro hperm
    have h1 := (hperm.map (·.1)).nodup_iff.2 (by
      have : (arrayWrites (unit .face) (elems (bigComp (6 * M)) false [] [] .face)).map (·.1) =
          (List.range (elems (bigComp (6 * M)) false [] [] .face).length).map (fun i => 4 * i) := by
        simp only [arrayWrites, unit]
        apply List.ext_getElem <;> simp
      rw [this, List.nodup_iff_pairwise_ne, List.pairwise_map]
      exact (List.nodup_iff_pairwise_ne.1 List.nodup_range).imp (fun h => by omega))
    simp [List.nodup_append] at h1

end Mcut.CC
