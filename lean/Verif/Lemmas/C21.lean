import Verif.Spec.C21
import Verif.Props.C17
import Verif.Props.C18
import Mathlib.Tactic.Ring
import Mathlib.Tactic.Conv

/-! Helper lemmas for `Props/C21.lean`. -/
namespace Mcut.CC
open Mcut.Sched
variable {D F : Type}

/-- Writes of consecutive elements starting at element `off`. -/
def wrAt (u off : Nat) (l : List (Cell D F)) : List (Write D F) := l.mapIdx (fun i v => (u * (off + i), v))

theorem wrAt_zero (u : Nat) (l : List (Cell D F)) : wrAt u 0 l = arrayWrites u l := by simp [wrAt, arrayWrites]

@[simp] theorem wrAt_nil (u off : Nat) : wrAt u off ([] : List (Cell D F)) = [] := rfl

theorem wrAt_cons (u off : Nat) (v : Cell D F) (l : List (Cell D F)) : wrAt u off (v :: l) = (u * off, v) :: wrAt u (off + 1) l := by
  simp only [wrAt, List.mapIdx_cons, Nat.add_zero]
  congr 1
  apply List.mapIdx_eq_mapIdx_iff.2
  intro i h; rw [show off + (i + 1) = off + 1 + i by omega]

theorem wrAt_append (u off : Nat) (a b : List (Cell D F)) : wrAt u off (a ++ b) = wrAt u off a ++ wrAt u (off + a.length) b := by
  induction a generalizing off with
  | nil => simp
  | cons v a ih => simp [wrAt_cons, ih, Nat.add_assoc, Nat.add_comm 1]

theorem wrAt_length (u off : Nat) (l : List (Cell D F)) : (wrAt u off l).length = l.length := by simp [wrAt]

/-- Consecutive blocks from `a` to `n`. -/
def Consec : Nat → List (Nat × Nat) → Nat → Prop
  | a, [], n => a = n
  | a, b :: bs, n => b.1 = a ∧ a ≤ b.2 ∧ b.2 ≤ n ∧ Consec b.2 bs n

theorem consec_blocksFrom (w block last : Nat) : ∀ start, start + w * block ≤ last → Consec start (blocksFrom start w block last) last := by
  induction w with
  | zero => intro s h; simp [blocksFrom, Consec]; omega
  | succ w ih =>
    intro s h
    have : (w + 1) * block = w * block + block := by ring
    exact ⟨rfl, by simp, by simp only; omega, ih _ (by omega)⟩

theorem blocks_ok (n avail m : Nat) (hn : 0 < n) (ha : 0 < avail) (hm : 0 < m) (hb : n + m ≤ 2 ^ 32) :
    ∃ bs, parallelForBlocks n avail m = .ok bs ∧ Consec 0 bs n := by
  obtain ⟨p, hp, hpos, hle, hb, hbe, -⟩ := schedulingParams_ok n avail m hn ha hm hb
  refine ⟨blocksFrom 0 (p.numThreads - 1) p.blockSize n, by simp [parallelForBlocks, hp], consec_blocksFrom _ _ _ _ ?_⟩
  have h1 : p.numThreads * p.blockSize ≤ n := by rw [hbe]; exact Nat.mul_div_le n p.numThreads
  have h2 : (p.numThreads - 1) * p.blockSize ≤ p.numThreads * p.blockSize := Nat.mul_le_mul_right _ (by omega)
  omega

/-- Total length of the first lists. -/
def pre {α : Type} (L : List (List α)) (i : Nat) : Nat := ((L.take i).map List.length).sum

theorem consec_flat (u : Nat) (L : List (List (Cell D F))) : ∀ (bs : List (Nat × Nat)) (a : Nat), Consec a bs L.length →
    (bs.map (fun b => wrAt u (pre L b.1) (slice L b).flatten)).flatten = wrAt u (pre L a) (L.drop a).flatten := by
  intro bs
  induction bs with
  | nil => intro a h; simp [Consec] at h; simp [h]
  | cons b bs ih =>
    intro a ⟨h1, h2, h3, h4⟩
    subst h1
    simp only [List.map_cons, List.flatten_cons]
    rw [ih b.2 h4]
    have e1 : L.drop b.1 = slice L b ++ L.drop b.2 := by
      simp only [slice]
      conv_lhs => rw [← List.take_append_drop (b.2 - b.1) (L.drop b.1)]
      rw [List.drop_drop]; congr 2; omega
    have e2 : pre L b.2 = pre L b.1 + (slice L b).flatten.length := by
      simp only [pre, slice, List.length_flatten]
      rw [← List.sum_append, ← List.map_append]
      congr 2
      have : b.2 = b.1 + (b.2 - b.1) := by omega
      conv_lhs => rw [this, List.take_add]
    rw [e1, List.flatten_append, wrAt_append, e2]

/-- A `parallel_for` whose blocks write their own items writes the array. -/
theorem par_full' (u : Nat) (L : List (List (Cell D F))) (avail m : Nat) (body : Nat × Nat → List (Write D F))
    (hn : 0 < L.length) (ha : 0 < avail) (hm : 0 < m) (hb : L.length + m ≤ 2 ^ 32)
    (hbody : ∀ b : Nat × Nat, b.1 < L.length → b.1 ≤ b.2 → b.2 ≤ L.length →
      (∀ bs, parallelForBlocks L.length avail m = .ok bs → b ∈ bs) → body b = wrAt u (pre L b.1) (slice L b).flatten)  :
    ∃ th, par L.length avail m body = .writes th ∧ th.flatten = arrayWrites u L.flatten := by
  obtain ⟨bs, h1, h2⟩ := blocks_ok L.length avail m hn ha hm hb
  refine ⟨bs.map body, by simp [par, h1], ?_⟩
  have h3 : ∀ (bs : List (Nat × Nat)) a, Consec a bs L.length → ∀ b ∈ bs, b.1 ≤ b.2 ∧ b.2 ≤ L.length := by
    intro bs
    induction bs with
    | nil => simp
    | cons b bs ih =>
      intro a ⟨e1, e2, e3, e4⟩ x hx
      rcases List.mem_cons.1 hx with rfl | hx
      · exact ⟨by omega, e3⟩
      · exact ih _ e4 x hx
  have h4 : bs.map body = bs.map (fun b => wrAt u (pre L b.1) (slice L b).flatten) := by
    apply List.map_congr_left
    intro b hb
    have := h3 bs 0 h2 b hb
    obtain ⟨bs', hb1, -, -, hb4, -⟩ := C17_blocks_partition_partial L.length avail m hn ha hm (by omega)
    rw [h1] at hb1; injection hb1 with hb1; subst hb1
    have h5 := hb4 b hb
    exact hbody b (by omega) this.1 this.2 (fun bs' h' => by rw [h1] at h'; injection h' with h'; subst h'; exact hb)
  rw [h4, consec_flat u L bs 0 h2]
  simp [pre, wrAt_zero]

theorem par_full (u : Nat) (L : List (List (Cell D F))) (avail m : Nat) (body : Nat × Nat → List (Write D F))
    (hn : 0 < L.length) (ha : 0 < avail) (hm : 0 < m) (hb : L.length + m ≤ 2 ^ 32)
    (hbody : ∀ b : Nat × Nat, b.1 < L.length → b.1 ≤ b.2 → b.2 ≤ L.length → body b = wrAt u (pre L b.1) (slice L b).flatten)  :
    ∃ th, par L.length avail m body = .writes th ∧ th.flatten = arrayWrites u L.flatten :=
  par_full' u L avail m body hn ha hm hb (fun b h1 h2 h3 _ => hbody b h1 h2 h3)

theorem floatLoop_full (toF : D → F) (nv : Nat) : ∀ (vs : List (D × D × D)) (m : Nat), m + vs.length ≤ nv →
    floatLoop toF nv (m * 3) vs = wrAt 4 (m * 3) (vs.flatMap (floats toF)) := by
  intro vs
  induction vs with
  | nil => intro m _; rfl
  | cons v vs ih =>
    intro m h
    simp only [List.length_cons] at h
    simp only [floatLoop]
    rw [if_neg (by omega)]
    have := ih (m + 1) (by omega)
    rw [show (m + 1) * 3 = m * 3 + 3 by ring] at this
    rw [this]
    simp [List.flatMap_cons, floats, wrAt_cons, Nat.add_assoc]

theorem doubleLoop_full (nv : Nat) : ∀ (vs : List (D × D × D)) (m : Nat), m + vs.length ≤ nv →
    (doubleLoop nv (m * 3) vs : List (Write D F)) = wrAt 8 (m * 3) (vs.flatMap doubles) := by
  intro vs
  induction vs with
  | nil => intro m _; rfl
  | cons v vs ih =>
    intro m h
    simp only [List.length_cons] at h
    simp only [doubleLoop]
    rw [if_neg (by omega)]
    have := ih (m + 1) (by omega)
    rw [show (m + 1) * 3 = m * 3 + 3 by ring] at this
    rw [this]
    simp [List.flatMap_cons, doubles, wrAt_cons, Nat.add_assoc]

theorem faceInner_full (n : Nat) : ∀ (vs : List Nat) (off : Nat), off + vs.length ≤ n →
    (faceInner n off vs : List (Write D F)) = wrAt 4 off (vs.map .u32) := by
  intro vs
  induction vs with
  | nil => intro off _; rfl
  | cons v vs ih =>
    intro off h
    simp only [List.length_cons] at h
    simp only [faceInner, List.map_cons, wrAt_cons]
    split
    · have : vs = [] := List.eq_nil_of_length_eq_zero (by omega)
      simp [this]
    · rw [ih (off + 1) (by omega)]

theorem faceOuter_full (flip : Bool) (n : Nat) : ∀ (fs : List (List Nat)) (off : Nat), off + (fs.map List.length).sum ≤ n →
    (faceOuter flip n off fs : List (Write D F)) = wrAt 4 off (fs.map (fun f => (if flip then f.reverse else f).map .u32)).flatten := by
  intro fs
  induction fs with
  | nil => intro off _; rfl
  | cons f fs ih =>
    intro off h
    simp only [List.map_cons, List.sum_cons] at h
    simp only [faceOuter, List.map_cons, List.flatten_cons]
    have hl : (if flip then f.reverse else f).length = f.length := by split <;> simp
    rw [faceInner_full n _ off (by rw [hl]; omega), ih _ (by rw [wrAt_length, List.length_map, hl]; omega), wrAt_append, wrAt_length]

theorem adjOuter_full : ∀ (fs : List (List Nat)) (off : Nat),
    (adjOuter off fs : List (Write D F)) = wrAt 4 off (fs.map (fun f => f.map .u32)).flatten := by
  intro fs
  induction fs with
  | nil => intro off; rfl
  | cons f fs ih =>
    intro off
    simp only [adjOuter, List.map_cons, List.flatten_cons]
    rw [ih, wrAt_append]
    congr 1
    · simp only [wrAt]; apply List.ext_getElem <;> simp
    · simp

theorem edgeLoop_full : ∀ (es : List (Nat × Nat)) (off : Nat),
    (edgeLoop off es : List (Write D F)) = wrAt 4 off (es.flatMap (fun e => [.u32 e.1, .u32 e.2])) := by
  intro es
  induction es with
  | nil => intro off; rfl
  | cons e es ih =>
    intro off
    simp only [edgeLoop]
    rw [ih]
    simp [List.flatMap_cons, wrAt_cons, Nat.add_assoc]

theorem seamLoop_full (n : Nat) : ∀ (vs : List Nat) (off : Nat), off + vs.length ≤ n →
    (seamLoop n off vs : List (Write D F)) = wrAt 4 off (vs.map .u32) := by
  intro vs
  induction vs with
  | nil => intro off _; rfl
  | cons v vs ih =>
    intro off h
    simp only [List.length_cons] at h
    simp only [seamLoop, List.map_cons, wrAt_cons]
    split
    · have : vs = [] := List.eq_nil_of_length_eq_zero (by omega)
      simp [this]
    · rw [ih (off + 1) (by omega)]

theorem mapLoop_full (f : Nat → Nat) (n : Nat) : ∀ (vs : List Nat) (off : Nat), off + vs.length ≤ n →
    (mapLoop f n off vs : List (Write D F)) = wrAt 4 off (vs.map (fun v => .u32 (f v))) := by
  intro vs
  induction vs with
  | nil => intro off _; rfl
  | cons v vs ih =>
    intro off h
    simp only [List.length_cons] at h
    simp only [mapLoop, List.map_cons, wrAt_cons]
    rw [if_neg (by omega), ih (off + 1) (by omega)]

theorem slice_map {α β : Type} (f : α → β) (l : List α) (b : Nat × Nat) : slice (l.map f) b = (slice l b).map f := by
  simp [slice, List.map_drop, List.map_take]

theorem slice_length {α : Type} (l : List α) (b : Nat × Nat) (h : b.2 ≤ l.length) : (slice l b).length = b.2 - b.1 := by
  simp [slice]; omega

theorem pre_const {α β : Type} (f : α → List β) (k : Nat) (hf : ∀ x, (f x).length = k) (l : List α) (i : Nat) (h : i ≤ l.length) :
    pre (l.map f) i = i * k := by
  simp only [pre, ← List.map_take, List.map_map]
  have : (List.length ∘ f) = fun _ => k := by funext x; exact hf x
  rw [this, List.map_const']; simp [Nat.min_eq_left h]

theorem sums_get (l : List Nat) : ∀ (a i : Nat), i < l.length → (sums a l).getD i 0 = a + (l.take i).sum + l.getD i 0 := by
  induction l with
  | nil => intro a i h; simp at h
  | cons x l ih =>
    intro a i h
    cases i with
    | zero => simp [sums]
    | succ i =>
      have h2 := ih (a + x) i (by simpa using h)
      simp only [sums, List.getD_cons_succ, List.take_succ_cons, List.sum_cons]
      rw [h2]; omega

theorem startOf_eq {α : Type} (L : List (List α)) (b : Nat × Nat) (h : b.1 < L.length) :
    startOf (sums 0 (L.map List.length)) (L.map List.length) b = pre L b.1 := by
  unfold startOf pre
  rw [sums_get _ _ _ (by simpa using h), ← List.map_take]; omega

theorem copyWords_full (l : List Nat) (n : Nat) (h : l.length ≤ n) : (copyWords l n : List (Write D F)) = arrayWrites 4 (l.map .u32) := by
  unfold copyWords arrayWrites
  rw [List.take_of_length_le h]; apply List.ext_getElem <;> simp

/-- What the caches hold. -/
structure CacheOk (c : Comp D F) (k : Cache) : Prop where
  sizes : ∀ l, k.sizes = some l → l = c.faces.map List.length
  adjSizes : ∀ l, k.adjSizes = some l → l = c.adj.map List.length
  seq : k.seq = [] ∨ k.seq = c.seq
  tri : ∀ t, k.tri = some t → ∃ (avail : Nat) (bs order : List (Nat × Nat)), parallelForBlocks c.faces.length avail 1024 = .ok bs ∧ order.Perm bs ∧
    t = order.flatMap (triLocal c) ∧ k.triMap = if c.fmap = [] then none else some (order.flatMap (triMapLocal c))
  triNone : k.tri = none → k.triMap = none

theorem fillSizes_ok {c : Comp D F} {k k' : Cache} {env : Env} (h : CacheOk c k) (hf : fillSizes c k env = .ok k') :
    CacheOk c k' ∧ k'.sizes = some (c.faces.map List.length) := by
  unfold fillSizes at hf
  split at hf
  · rename_i l hl; injection hf with hf; subst hf; exact ⟨h, by rw [hl, h.sizes l hl]⟩
  · split at hf <;> [skip; (simp at hf); (simp at hf)]
    injection hf with hf; subst hf
    exact ⟨⟨by simp, h.adjSizes, h.seq, h.tri, h.triNone⟩, rfl⟩

theorem fillAdjSizes_ok {c : Comp D F} {k k' : Cache} {env : Env} (h : CacheOk c k) (hf : fillAdjSizes c k env = .ok k') :
    CacheOk c k' ∧ k'.adjSizes = some (c.adj.map List.length) := by
  unfold fillAdjSizes at hf
  split at hf
  · rename_i l hl; injection hf with hf; subst hf; exact ⟨h, by rw [hl, h.adjSizes l hl]⟩
  · split at hf <;> [skip; (simp at hf); (simp at hf)]
    injection hf with hf; subst hf
    exact ⟨⟨h.sizes, by simp, h.seq, h.tri, h.triNone⟩, rfl⟩

theorem store_length (ws : List (Nat × Nat)) : ∀ l, (ws.foldl store l).length = l.length := by
  induction ws with
  | nil => intro l; rfl
  | cons w ws ih => intro l; simp only [List.foldl_cons]; rw [ih]; simp [store]

theorem store_other (ws : List (Nat × Nat)) : ∀ (l : List Nat) (i : Nat), i ∉ ws.map (·.1) → (ws.foldl store l)[i]? = l[i]? := by
  induction ws with
  | nil => intro l i _; rfl
  | cons w ws ih =>
    intro l i h
    simp only [List.map_cons, List.mem_cons, not_or] at h
    simp only [List.foldl_cons]
    rw [ih _ _ h.2]
    simp only [store]
    rw [List.getElem?_set_ne (fun e => h.1 e.symm)]

theorem store_get (ws : List (Nat × Nat)) : ∀ (l : List Nat) (i v : Nat), (i, v) ∈ ws → (ws.map (·.1)).Nodup → i < l.length →
    (ws.foldl store l)[i]? = some v := by
  induction ws with
  | nil => intro l i v h; simp at h
  | cons w ws ih =>
    intro l i v h hn hi
    simp only [List.map_cons, List.nodup_cons] at hn
    simp only [List.foldl_cons]
    rcases List.mem_cons.1 h with h | h
    · subst h
      rw [store_other _ _ _ hn.1]
      simp [store, hi]
    · exact ih _ _ _ h hn.2 (by simpa [store] using hi)

/-- Stores to all cells of an array, in any order. -/
theorem store_all (ws : List (Nat × Nat)) (L : List Nat) (h : ws.Perm (L.mapIdx (fun i v => (i, v)))) :
    ws.foldl store (List.replicate L.length 0) = L := by
  apply List.ext_getElem?
  intro i
  by_cases hi : i < L.length
  · have hm : (i, L[i]) ∈ ws := by
      rw [h.mem_iff, List.mem_mapIdx]; exact ⟨i, hi, rfl⟩
    have hn : (ws.map (·.1)).Nodup := by
      rw [(h.map _).nodup_iff]
      have : (L.mapIdx (fun i v => (i, v))).map (·.1) = List.range L.length := by
        apply List.ext_getElem <;> simp
      rw [this]; exact List.nodup_range
    rw [store_get ws _ i _ hm hn (by simpa using hi)]
    simp [hi]
  · rw [List.getElem?_eq_none (by rw [store_length]; simpa using hi), List.getElem?_eq_none (by omega)]

theorem mapIdx_append_off {α β : Type} (f : Nat → α → β) (a b : List α) :
    (a ++ b).mapIdx f = a.mapIdx f ++ b.mapIdx (fun i v => f (a.length + i) v) := by
  rw [List.mapIdx_append]; congr 1; apply List.mapIdx_eq_mapIdx_iff.2; intro i hi; rw [Nat.add_comm]

theorem triStores_all (c : Comp D F) : ∀ (order : List (Nat × Nat)) (off : Nat), (reserve c off order).flatMap (triStores c) =
    (order.flatMap (triLocal c)).mapIdx (fun i v => (off + i, v)) := by
  intro order
  induction order with
  | nil => intro off; rfl
  | cons b bs ih =>
    intro off
    simp only [reserve, List.flatMap_cons]
    rw [ih, mapIdx_append_off]
    congr 1
    apply List.mapIdx_eq_mapIdx_iff.2; intro i hi; rw [Nat.add_assoc]

theorem flatMap_mod3 {α : Type} (f : α → List Nat) (l : List α) (h : ∀ x ∈ l, (f x).length % 3 = 0) : (l.flatMap f).length % 3 = 0 := by
  induction l with
  | nil => rfl
  | cons x l ih =>
    simp only [List.flatMap_cons, List.length_append]
    have h1 := h x (by simp)
    have h2 := ih (fun y hy => h y (by simp [hy]))
    omega

theorem third_length (n : Nat) : ((List.range n).filter (fun i => i % 3 = 0)).length = (n + 2) / 3 := by
  induction n with
  | zero => rfl
  | succ n ih =>
    rw [List.range_succ, List.filter_append, List.length_append, ih]
    by_cases h : n % 3 = 0
    · simp [h]; omega
    · simp [h]; omega

theorem third_eq (m : Nat) : ((List.range (3 * m)).filter (fun i => i % 3 = 0)) = (List.range m).map (fun i => 3 * i) := by
  induction m with
  | zero => rfl
  | succ m ih =>
    rw [show 3 * (m + 1) = 3 * m + 1 + 1 + 1 by ring, List.range_succ, List.range_succ, List.range_succ, List.range_succ]
    simp only [List.filter_append, List.map_append, ih, List.map_cons, List.map_nil]
    have h1 : List.filter (fun i => decide (i % 3 = 0)) [3 * m] = [3 * m] := by simp
    have h2 : List.filter (fun i => decide (i % 3 = 0)) [3 * m + 1] = [] := by simp [List.filter_cons]; try omega
    have h3 : List.filter (fun i => decide (i % 3 = 0)) [3 * m + 1 + 1] = [] := by simp [List.filter_cons]; try omega
    rw [h1, h2, h3]; simp

theorem faceTris_mod3 {c : Comp D F} (ok : Ok c) (f : Nat) (h : f < c.faces.length) : (faceTris c f).length % 3 = 0 := by
  unfold faceTris
  simp only
  split
  · rename_i h; rw [h]
  · rw [List.length_map]; exact ok.tri f h

theorem blocks_bound {n avail m : Nat} {bs : List (Nat × Nat)} (h : parallelForBlocks n avail m = .ok bs) :
    ∀ b ∈ bs, ∀ i ∈ blockIndices b, i < n := by
  unfold parallelForBlocks at h
  split at h
  · simp at h
  · rename_i p hp
    injection h with h; subst h
    have hle : ∀ w start, start + w * p.blockSize ≤ n → ∀ b ∈ blocksFrom start w p.blockSize n, b.2 ≤ n := by
      intro w
      induction w with
      | zero => intro s _ b hb; simp [blocksFrom] at hb; subst hb; exact Nat.le_refl _
      | succ w ih =>
        intro s hs b hb
        have : (w + 1) * p.blockSize = w * p.blockSize + p.blockSize := by ring
        simp only [blocksFrom, List.mem_cons] at hb
        rcases hb with rfl | hb
        · simp only; omega
        · exact ih _ (by omega) b hb
    have hblk : p.numThreads * p.blockSize ≤ n := by
      have hp' := hp
      unfold schedulingParams at hp'
      simp only at hp'
      split at hp' <;> [(simp at hp'; done); skip]
      generalize (if avail ≠ 0 then avail else 2) = av at hp'
      split at hp' <;> [(simp at hp'; done); skip]
      split at hp' <;> [(simp at hp'; done); skip]
      split at hp' <;> [(simp at hp'; done); skip]
      split at hp' <;> [(simp at hp'; done); skip]
      injection hp' with hp'; subst hp'; exact Nat.mul_div_le _ _
    have h2 : (p.numThreads - 1) * p.blockSize ≤ p.numThreads * p.blockSize := Nat.mul_le_mul_right _ (by omega)
    intro b hb i hi
    have := hle (p.numThreads - 1) 0 (by omega) b hb
    simp [blockIndices] at hi
    omega

theorem triLocal_mod3 {c : Comp D F} (ok : Ok c) (b : Nat × Nat) (h : ∀ i ∈ blockIndices b, i < c.faces.length) :
    (triLocal c b).length % 3 = 0 :=
  flatMap_mod3 _ _ (fun f hf => faceTris_mod3 ok f (h f hf))

theorem triMapLocal_length {c : Comp D F} (ok : Ok c) (b : Nat × Nat) (h : ∀ i ∈ blockIndices b, i < c.faces.length) :
    3 * (triMapLocal c b).length = (triLocal c b).length := by
  unfold triLocal triMapLocal
  generalize blockIndices b = l at h ⊢
  induction l with
  | nil => rfl
  | cons f l ih =>
    simp only [List.flatMap_cons, List.length_append, Nat.mul_add, ih (fun i hi => h i (by simp [hi]))]
    have := faceTris_mod3 ok f (h f (by simp))
    simp only [faceTriMap, List.length_map, third_length]; omega

theorem triMapStores_all {c : Comp D F} (ok : Ok c) : ∀ (order : List (Nat × Nat)) (off : Nat),
    (∀ b ∈ order, ∀ i ∈ blockIndices b, i < c.faces.length) → off % 3 = 0 → (reserve c off order).flatMap (triMapStores c) =
      (order.flatMap (triMapLocal c)).mapIdx (fun i v => (off / 3 + i, some v)) := by
  intro order
  induction order with
  | nil => intro off _ _; rfl
  | cons b bs ih =>
    intro off h ho
    have hb := h b (by simp)
    have h1 := triLocal_mod3 ok b hb
    have h2 := triMapLocal_length ok b hb
    simp only [reserve, List.flatMap_cons]
    rw [ih _ (fun b' hb' => h b' (by simp [hb'])) (by omega), mapIdx_append_off]
    congr 1
    · simp only [triMapStores]
      rw [← h2, third_eq]
      apply List.ext_getElem
      · simp
      · intro i hi1 hi2
        simp only [List.length_map, List.length_range] at hi1
        simp [hi1]; omega
    · apply List.mapIdx_eq_mapIdx_iff.2; intro i hi
      rw [← h2, ← Nat.add_assoc]
      congr 2; omega

/-- What a triangulation leaves in the caches. -/
theorem triangulate_ok {c : Comp D F} (ok : Ok c) {k : Cache} {env : Env} (he : EnvOk c .tri env) (hn : k.triMap = none) :
    ∃ bs, parallelForBlocks c.faces.length env.avail 1024 = .ok bs ∧ env.order.Perm bs ∧
    triangulate c k env = .ok { k with tri := some (env.order.flatMap (triLocal c)),
                                       triMap := if c.fmap = [] then none else some (env.order.flatMap (triMapLocal c)) } := by
  obtain ⟨bs, h, -⟩ := blocks_ok c.faces.length env.avail 1024 (List.length_pos_iff.2 ok.faces) he.avail (by decide) (by have := ok.bound; omega)
  have hp := he.order bs h
  have hbd : ∀ b ∈ env.order, ∀ i ∈ blockIndices b, i < c.faces.length := by
    intro b hb; exact blocks_bound h b (hp.mem_iff.1 hb)
  refine ⟨bs, h, hp, ?_⟩
  unfold triangulate
  rw [h]
  simp only
  have e1 : (env.order.map (fun b => (triLocal c b).length)).sum = (env.order.flatMap (triLocal c)).length := by
    rw [List.length_flatMap]
  have e2 : env.wIdx.foldl store (List.replicate (env.order.flatMap (triLocal c)).length 0) = env.order.flatMap (triLocal c) := by
    apply store_all
    have := he.wIdx
    rw [triStores_all] at this
    simpa using this
  rw [e1, e2]
  have h3 : ∀ (l : List (Nat × Nat)), (∀ b ∈ l, ∀ i ∈ blockIndices b, i < c.faces.length) →
      3 * (l.flatMap (triMapLocal c)).length = (l.flatMap (triLocal c)).length := by
    intro l
    induction l with
    | nil => intro _; rfl
    | cons b l ih =>
      intro h
      simp only [List.flatMap_cons, List.length_append, Nat.mul_add]
      rw [ih (fun b' hb' => h b' (by simp [hb'])), triMapLocal_length ok b (h b (by simp))]
  have h4 := h3 _ hbd
  by_cases hf : c.fmap = []
  · simp only [hf, if_true]; rw [hn]
  · rw [if_neg hf, if_neg, if_neg hf]
    · have e3 : (env.order.flatMap (triLocal c)).length / 3 = (env.order.flatMap (triMapLocal c)).length := by omega
      rw [e3]
      have e4 : env.wMap.foldl store (List.replicate (env.order.flatMap (triMapLocal c)).length 0) = env.order.flatMap (triMapLocal c) := by
        apply store_all
        have h5 := he.wMap
        rw [triMapStores_all ok _ 0 hbd rfl] at h5
        have h6 := h5.map (fun w => (w.1, w.2.getD 0))
        have e5 : List.map (fun w => (w.1, w.2.getD 0)) (List.mapIdx (fun i v => (0 / 3 + i, some v)) (List.flatMap (triMapLocal c) env.order)) =
            List.mapIdx (fun i v => (i, v)) (List.flatMap (triMapLocal c) env.order) := by
          apply List.ext_getElem <;> simp
        rw [e5] at h6
        simpa [Function.comp_def] using h6
      rw [e4]
    · rintro ⟨x, hx, w, hw, hh⟩
      have hm : w ∈ (reserve c 0 env.order).flatMap (triMapStores c) := List.mem_flatMap.2 ⟨x, hx, hw⟩
      rw [triMapStores_all ok _ 0 hbd rfl, List.mem_mapIdx] at hm
      obtain ⟨i, hi, rfl⟩ := hm
      simp at hh
      omega

theorem fillTri_some {c : Comp D F} (ok : Ok c) {k : Cache} (h : CacheOk c k) {env : Env} (he : EnvOk c .tri env) :
    ∃ k', fillTri c k env = .ok k' ∧ CacheOk c k' ∧ ∃ t, k'.tri = some t := by
  unfold fillTri
  split
  · rename_i t ht; exact ⟨k, rfl, h, t, ht⟩
  · rename_i hn
    obtain ⟨bs, h1, h2, h3⟩ := triangulate_ok ok he (h.triNone hn)
    refine ⟨_, h3, ⟨h.sizes, h.adjSizes, h.seq, ?_, by simp⟩, _, rfl⟩
    intro t ht
    injection ht with ht; subst ht
    exact ⟨_, bs, env.order, h1, h2, rfl, rfl⟩

theorem fillTri_ok {c : Comp D F} (ok : Ok c) {k k' : Cache} {env : Env} (h : CacheOk c k) (he : EnvOk c .tri env) (hf : fillTri c k env = .ok k') :
    CacheOk c k' ∧ ∃ t, k'.tri = some t := by
  obtain ⟨k2, h1, h2⟩ := fillTri_some ok h he
  rw [h1] at hf; injection hf with hf; subst hf; exact h2

theorem EnvOk.flag {c : Comp D F} {flag : Flag} {env : Env} (he : EnvOk c flag env) : EnvOk c .tri env :=
  ⟨he.avail, ⟨by simp, by simp⟩, he.order, he.wIdx, he.wMap⟩

theorem query_cacheOk {c : Comp D F} (ok : Ok c) {k : Cache} (h : CacheOk c k) (env : Env) (flag : Flag) (he : EnvOk c flag env) (bytes : Nat) (mem num : Bool) :
    CacheOk c (query c k env flag bytes mem num).1 := by
  have hs : CacheOk c (if k.seq = [] then { k with seq := c.seq } else k) := by
    split
    · exact ⟨h.sizes, h.adjSizes, Or.inr rfl, h.tri, h.triNone⟩
    · exact h
  by_cases hq : flag = .seamSeq
  · subst hq
    simp only [query]
    generalize (if k.seq = [] then { k with seq := c.seq } else k) = k' at hs ⊢
    repeat' split
    all_goals first | exact h | exact hs
  · cases flag <;> simp only [query] <;> first | contradiction | skip
    all_goals repeat' split
    all_goals first | exact h | exact (fillSizes_ok h (by assumption)).1 | exact (fillAdjSizes_ok h (by assumption)).1 |
      exact (fillTri_ok ok h he.flag (by assumption)).1

theorem caches_ok {c : Comp D F} (ok : Ok c) {k : Cache} (h : Caches c k) : CacheOk c k := by
  induction h with
  | fresh => exact ⟨by simp [Cache.empty], by simp [Cache.empty], Or.inl rfl, by simp [Cache.empty], by simp [Cache.empty]⟩
  | step h flag env he bytes mem num ih => exact query_cacheOk ok ih env flag he bytes mem num

theorem fillSizes_some {c : Comp D F} {k : Cache} {env : Env} (ok : Ok c) (ha : 0 < env.avail) : ∃ k', fillSizes c k env = .ok k' := by
  unfold fillSizes
  split
  · exact ⟨_, rfl⟩
  · obtain ⟨bs, h, -⟩ := blocks_ok c.faces.length env.avail 1024 (List.length_pos_iff.2 ok.faces) ha (by decide) (by have := ok.bound; omega)
    rw [h]; exact ⟨_, rfl⟩

theorem fillAdjSizes_some {c : Comp D F} {k : Cache} {env : Env} (ok : Ok c) (ha : 0 < env.avail) : ∃ k', fillAdjSizes c k env = .ok k' := by
  unfold fillAdjSizes
  split
  · exact ⟨_, rfl⟩
  · obtain ⟨bs, h, -⟩ := blocks_ok c.faces.length env.avail 1024 (List.length_pos_iff.2 ok.faces) ha (by decide) (by have := ok.bound; omega)
    rw [h]; exact ⟨_, rfl⟩

theorem consec_sum {α : Type} (ls : List (List α)) : ∀ (bs : List (Nat × Nat)) (a : Nat), Consec a bs ls.length →
    (bs.map (fun b => ((slice ls b).map List.length).sum)).sum = ((ls.drop a).map List.length).sum := by
  intro bs
  induction bs with
  | nil => intro a h; simp [Consec] at h; simp [h]
  | cons b bs ih =>
    intro a ⟨h1, h2, h3, h4⟩
    subst h1
    have e1 : ls.drop b.1 = slice ls b ++ ls.drop b.2 := by
      simp only [slice]
      conv_lhs => rw [← List.take_append_drop (b.2 - b.1) (ls.drop b.1)]
      rw [List.drop_drop]; congr 2; omega
    rw [e1]; simp [ih b.2 h4]

theorem countAll_eq {c : Comp D F} {env : Env} (ok : Ok c) (ha : 0 < env.avail) (ls : List (List Nat)) (hl : ls.length = c.faces.length) :
    countAll c ls env = .size (ls.flatten.length * 4) := by
  unfold countAll
  obtain ⟨bs, h, hc⟩ := blocks_ok c.faces.length env.avail 1024 (List.length_pos_iff.2 ok.faces) ha (by decide) (by have := ok.bound; omega)
  rw [h]
  simp only
  rw [consec_sum ls bs 0 (hl ▸ hc)]; simp [List.length_flatten]

theorem byteSize_u32 (l : List Nat) : byteSize (l.map (Cell.u32 : Nat → Cell D F)) = l.length * 4 := by
  simp only [byteSize, List.map_map]
  have : (Cell.size ∘ (Cell.u32 : Nat → Cell D F)) = fun _ => 4 := by funext x; rfl
  rw [this, List.map_const']; simp

theorem byteSize_flatMap {α : Type} (f : α → List (Cell D F)) (k : Nat) (hf : ∀ x, byteSize (f x) = k) (l : List α) :
    byteSize (l.flatMap f) = l.length * k := by
  induction l with
  | nil => simp [byteSize]
  | cons x l ih =>
    simp only [byteSize, List.flatMap_cons, List.map_append, List.sum_append] at *
    rw [ih, hf]; simp; ring

theorem single_flatten {α : Type} (f : α → Cell D F) (l : List α) : (l.map (fun e => [f e])).flatten = l.map f := by
  induction l with
  | nil => rfl
  | cons a l ih => simp [ih]

theorem total_toNat (l : List Nat) (h : l.sum < 2 ^ 32) : (Spec.total (l.map (BitVec.ofNat 32))).toNat = l.sum := by
  induction l with
  | nil => rfl
  | cons x l ih =>
    simp only [List.sum_cons] at h
    simp only [List.map_cons, PrefixSum.total_cons, BitVec.toNat_add, BitVec.toNat_ofNat, List.sum_cons]
    rw [ih (by omega), Nat.mod_eq_of_lt (show x < 2 ^ 32 by omega), Nat.mod_eq_of_lt (by omega)]

theorem sums_length (l : List Nat) : ∀ a, (sums a l).length = l.length := by
  induction l with
  | nil => intro a; rfl
  | cons x l ih => intro a; simp [sums, ih]

theorem sums_prefix (l : List Nat) (h : l.sum < 2 ^ 32) :
    (Spec.prefixSums (l.map (BitVec.ofNat 32))).map BitVec.toNat = sums 0 l := by
  apply List.ext_getElem
  · simp [Spec.prefixSums, sums_length]
  · intro i h1 h2
    have hi : i < l.length := by rw [sums_length] at h2; exact h2
    have e := sums_get l 0 i hi
    have e2 : (sums 0 l)[i] = (sums 0 l).getD i 0 := by simp [List.getD_eq_getElem?_getD, h2]
    have e3 : l.getD i 0 = l[i] := by simp [List.getD_eq_getElem?_getD, hi]
    rw [e2, e, e3]
    simp only [Spec.prefixSums, List.getElem_map, List.getElem_range, ← List.map_take]
    have hs : (l.take (i + 1)).sum = (l.take i).sum + l[i] := by
      rw [List.take_add_one, List.getElem?_eq_getElem hi, List.sum_append]; rfl
    have hle : (l.take (i + 1)).sum ≤ l.sum := by
      conv_rhs => rw [← List.take_append_drop (i + 1) l, List.sum_append]
      omega
    rw [total_toNat _ (by omega), hs]; omega

/-- The master finishes its chunk without help. -/
theorem PrefixSum.finish (n : Nat) (hn : 0 < n) : ∀ (m : Nat) (s : PrefixSum.St) (k : Nat) (a : PrefixSum.W), s.pc (n - 1) = .adding k a →
    (s.data (n - 1)).length - k = m → ∃ s', Reach (PrefixSum.step n) s s' ∧ PrefixSum.returned n s' ∧ ∀ j < n - 1, s'.data j = s.data j := by
  intro m
  induction m with
  | zero =>
    intro s k a hpc hm
    refine ⟨_, ⟨[n - 1], by simp only [runSched, PrefixSum.step]; rw [if_pos (by omega), hpc]; simp only; rw [if_neg (by omega)]; rfl⟩, ?_, ?_⟩
    · simp [PrefixSum.returned]
    · intro j hj; rfl
  | succ m ih =>
    intro s k a hpc hm
    by_cases hk : k + 1 < (s.data (n - 1)).length
    · have hs : PrefixSum.step n s (n - 1) = some { s with data := upd s.data (n - 1) ((s.data (n - 1)).modify k (· + a)), pc := upd s.pc (n - 1) (.adding (k + 1) a) } := by
        simp only [PrefixSum.step]; rw [if_pos (by omega), hpc]; simp only; rw [if_pos hk]
      obtain ⟨s', ⟨sched, h1⟩, h2, h3⟩ := ih { s with data := upd s.data (n - 1) ((s.data (n - 1)).modify k (· + a)), pc := upd s.pc (n - 1) (.adding (k + 1) a) } (k + 1) a (by simp) (by simp; omega)
      refine ⟨s', ⟨(n - 1) :: sched, by simp only [runSched]; rw [hs]; exact h1⟩, h2, ?_⟩
      intro j hj
      rw [h3 j hj]; simp only; rw [upd_other _ _ _ _ (by omega)]
    · refine ⟨_, ⟨[n - 1], by simp only [runSched, PrefixSum.step]; rw [if_pos (by omega), hpc]; simp only; rw [if_neg hk]; rfl⟩, ?_, ?_⟩
      · simp [PrefixSum.returned]
      · intro j hj; rfl

/-- With three threads the call can return before the second thread has added the first one's total. -/
theorem PrefixSum.race (c : Nat → List PrefixSum.W) (h0 : c 0 ≠ []) (h1 : c 1 ≠ []) :
    ∃ s, Reach (PrefixSum.step 3) (PrefixSum.init c) s ∧ PrefixSum.returned 3 s ∧ s.data 0 = PrefixSum.partialSum (c 0) ∧
      ∃ a, s.data 1 = (PrefixSum.partialSum (c 1)).modify ((c 1).length - 1) (· + a) := by
  have e0 : (PrefixSum.partialSum (c 0)).length = (c 0).length := by rw [PrefixSum.partialSum_eq, PrefixSum.prefixSums_length]
  have e1 : (PrefixSum.partialSum (c 1)).length = (c 1).length := by rw [PrefixSum.partialSum_eq, PrefixSum.prefixSums_length]
  have n0 : ∃ a, (PrefixSum.partialSum (c 0)).getLast? = some a := by
    cases h : PrefixSum.partialSum (c 0) with
    | nil => rw [h] at e0; exact absurd (List.eq_nil_of_length_eq_zero e0.symm) h0
    | cons x l => exact ⟨_, List.getLast?_eq_some_getLast (by simp)⟩
  obtain ⟨a, ha⟩ := n0
  have n1 : ∃ b, ((PrefixSum.partialSum (c 1)).modify ((c 1).length - 1) (· + a)).getLast? = some b := by
    cases h : (PrefixSum.partialSum (c 1)).modify ((c 1).length - 1) (· + a) with
    | nil =>
      have := congrArg List.length h
      rw [List.length_modify, e1] at this
      exact absurd (List.eq_nil_of_length_eq_zero this) h1
    | cons x l => exact ⟨_, List.getLast?_eq_some_getLast (by simp)⟩
  obtain ⟨b, hb⟩ := n1
  have hex : ∃ s, runSched (PrefixSum.step 3) (PrefixSum.init c) [0, 0, 1, 1, 2, 2] = some s ∧ s.pc 2 = .adding 0 b ∧
      s.data 0 = PrefixSum.partialSum (c 0) ∧ s.data 1 = (PrefixSum.partialSum (c 1)).modify ((c 1).length - 1) (· + a) := by
    refine ⟨_, by simp [runSched, PrefixSum.step, PrefixSum.init, upd, ha, e1, hb]; rfl, ?_, ?_, ?_⟩ <;> simp [upd]
  obtain ⟨s, hs, hpc, hd0, hd1⟩ := hex
  obtain ⟨s', ⟨sched, hr⟩, hret, hfr⟩ := PrefixSum.finish 3 (by decide) _ s 0 b hpc rfl
  refine ⟨s', ⟨[0, 0, 1, 1, 2, 2] ++ sched, by rw [runSched_append, hs]; exact hr⟩, hret, ?_, a, ?_⟩
  · rw [hfr 0 (by decide), hd0]
  · rw [hfr 1 (by decide), hd1]

end Mcut.CC
