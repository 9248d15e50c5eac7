import Verif.Spec.C36

/-! Helper lemmas for `Props/C36.lean`. -/
namespace Mcut.Bvh
open Mcut.Box
variable {α : Type*} [LinearOrder α]

/-- Memory slot of node number `k` of level `l`. -/
def sl (L t l k : Nat) : Nat := bvhSize (levelCount L t l) - levelCount L t l + k

/-- The faces below node number `k` of level `l`. -/
def seg (L : Nat) (faces : List Nat) (l k : Nat) : List Nat := (faces.drop (k * 2 ^ (L - l))).take (2 ^ (L - l))

theorem memIndex_eq (L t l k : Nat) (h1 : 1 ≤ t) (ht : t ≤ 2 ^ 23) (hL : LeafDepth t L) (hl : l ≤ L) (hk : k < levelCount L t l) :
    memIndex (2 ^ l - 1 + k) (leftmost l) (levelRightmost (rightmostRealLeaf L t) L l) = sl L t l k := by
  rw [levelRightmost_eq L t l h1 ht hL hl, leftmost_eq]
  unfold memIndex sl
  have hge := bvhSize_ge (levelCount L t l) (by omega)
  have e : 2 ^ l - 1 + (levelCount L t l - 1) - (2 ^ l - 1) + 1 = levelCount L t l := by omega
  rw [e]
  omega

theorem nodesOnLevel_eq (L t l : Nat) (h1 : 1 ≤ t) (ht : t ≤ 2 ^ 23) (hL : LeafDepth t L) (hl : l ≤ L) :
    nodesOnLevel t l = levelCount L t l := by
  unfold nodesOnLevel
  rw [leafLevel_eq t L h1 (by omega) hL, levelRightmost_eq L t l h1 ht hL hl, leftmost_eq]
  have : 1 ≤ levelCount L t l := Nat.succ_pos _
  omega

theorem sl_inj (L t l m k r : Nat) (h1 : 1 ≤ t) (ht : t ≤ 2 ^ 23) (hL : LeafDepth t L) (hl : l ≤ L) (hm : m ≤ L)
    (hk : k < levelCount L t l) (hr : r < levelCount L t m) (h : sl L t l k = sl L t m r) : l = m ∧ k = r := by
  unfold sl at h
  have g1 := bvhSize_ge (levelCount L t l) (by omega)
  have g2 := bvhSize_ge (levelCount L t m) (by omega)
  rcases Nat.lt_trichotomy l m with c | c | c
  · have := bvhSize_mono L t l m h1 (by omega) hL c hm; omega
  · subst c; omega
  · have := bvhSize_mono L t m l h1 (by omega) hL c hl; omega

theorem seg_split (L : Nat) (faces : List Nat) (l k : Nat) (hl : l + 1 ≤ L) :
    seg L faces l k = seg L faces (l + 1) (2 * k) ++ seg L faces (l + 1) (2 * k + 1) := by
  unfold seg
  have : L - l = (L - (l + 1)) + 1 := by omega
  rw [this, Nat.pow_succ]
  generalize 2 ^ (L - (l + 1)) = w
  have e1 : k * (w * 2) = 2 * k * w := by rw [Nat.mul_comm w 2, ← Nat.mul_assoc, Nat.mul_comm k 2]
  have e2 : (2 * k + 1) * w = 2 * k * w + w := by rw [Nat.add_mul, Nat.one_mul]
  rw [e1, e2, Nat.mul_two, List.take_add, List.drop_drop]

theorem seg_nil (L : Nat) (faces : List Nat) (l k : Nat) (hk : levelCount L faces.length l ≤ k) : seg L faces l k = [] := by
  unfold seg
  rw [List.take_eq_nil_iff]
  right
  rw [List.drop_eq_nil_iff]
  unfold levelCount at hk
  have hp := Nat.two_pow_pos (L - l)
  have : (faces.length - 1) / 2 ^ (L - l) < k := by omega
  rw [Nat.div_lt_iff_lt_mul hp] at this
  omega

theorem seg_leaf (L : Nat) (faces : List Nat) (k : Nat) (hk : k < faces.length) : seg L faces L k = [faces.getD k 0] := by
  unfold seg
  simp only [Nat.sub_self, Nat.pow_zero, Nat.mul_one]
  rw [List.drop_eq_getElem_cons hk]
  simp only [List.take_succ_cons, List.take_zero, List.getD_eq_getElem?_getD, List.getElem?_eq_getElem hk, Option.getD_some]

theorem seg_root (L : Nat) (faces : List Nat) (h : faces.length ≤ 2 ^ L) : seg L faces 0 0 = faces := by
  unfold seg
  simp only [Nat.zero_mul, List.drop_zero, Nat.sub_zero]
  exact List.take_of_length_le h

theorem box_sub_trans {a b c : BBox α} (h : Sub a b) (h' : Sub b c) : Sub a c := by
  obtain ⟨h1, h2, h3, h4, h5, h6⟩ := h
  obtain ⟨i1, i2, i3, i4, i5, i6⟩ := h'
  exact ⟨i1.trans h1, h2.trans i2, i3.trans h3, h4.trans i4, i5.trans h5, h6.trans i6⟩

/-- The stored boxes of levels `≥ n` are correct. -/
def LevelsOK (L : Nat) (faces : List Nat) (box : Nat → BBox α) (mem : Nat → BBox α) (n : Nat) : Prop :=
  ∀ l k, n ≤ l → l ≤ L → k < levelCount L faces.length l →
    (∀ f ∈ seg L faces l k, Sub (box f) (mem (sl L faces.length l k))) ∧
    (l = L → mem (sl L faces.length l k) = box (faces.getD k 0))

/-- Processing `ks` in order: every processed node gets a value satisfying `P`, provided that the node function yields such a value on any
memory that satisfies the frame condition `F`, and that `F` is preserved. -/
theorem foldl_upd {β : Type*} (g : Nat → Nat) (v : (Nat → β) → Nat → β) (F : (Nat → β) → Prop) (P : Nat → β → Prop) (cnt : Nat)
    (hg : ∀ a b, a < cnt → b < cnt → g a = g b → a = b)
    (hF : ∀ m k b, F m → k < cnt → F (upd m (g k) b))
    (hv : ∀ m k, F m → k < cnt → P k (v m k))
    (ks : List Nat) (hks : ∀ k ∈ ks, k < cnt) (m : Nat → β) (hm : F m) :
    F (ks.foldl (fun m k => upd m (g k) (v m k)) m) ∧
    (∀ j, j < cnt → (j ∈ ks ∨ P j (m (g j))) → P j (ks.foldl (fun m k => upd m (g k) (v m k)) m (g j))) := by
  induction ks generalizing m with
  | nil => simp [hm]
  | cons k ks ih =>
    have hk : k < cnt := hks k (by simp)
    simp only [List.foldl_cons]
    obtain ⟨h1, h2⟩ := ih (fun x hx => hks x (by simp [hx])) (upd m (g k) (v m k)) (hF m k _ hm hk)
    refine ⟨h1, fun j hj h => h2 j hj ?_⟩
    by_cases hjk : j = k
    · subst hjk; right; rw [upd_same]; exact hv m j hm hj
    · rcases h with h | h
      · left; simpa [hjk] using h
      · right
        rw [upd_other _ _ _ _ (fun e => hjk (hg j k hj hk e))]; exact h

theorem storeLeaves_ok (L : Nat) (faces : List Nat) (box : Nat → BBox α) (order : List Nat) (mem : Nat → BBox α)
    (h1 : 1 ≤ faces.length) (ht : faces.length ≤ 2 ^ 23) (hL : LeafDepth faces.length L)
    (ho : order.Perm (List.range (nodesOnLevel faces.length L))) :
    LevelsOK L faces box (storeLeaves faces box order mem) L := by
  rw [nodesOnLevel_eq L _ L h1 ht hL (le_refl _), levelCount_leaf _ _ h1] at ho
  have hmem : ∀ k, k ∈ order ↔ k < faces.length := fun k => by rw [ho.mem_iff, List.mem_range]
  have hcl := levelCount_leaf L faces.length h1
  unfold storeLeaves
  simp only
  rw [leafLevel_eq _ L h1 (by omega) hL]
  have key := foldl_upd (β := BBox α)
    (fun k => memIndex (leftmost L + k) (leftmost L) (levelRightmost (rightmostRealLeaf L faces.length) L L))
    (fun _ k => box (faces.getD k 0)) (fun _ => True) (fun k b => b = box (faces.getD k 0)) faces.length
    (by
      intro a b ha hb hab
      simp only [leftmost_eq L] at hab
      have ea := memIndex_eq L _ L a h1 ht hL (le_refl _) (by omega)
      have eb := memIndex_eq L _ L b h1 ht hL (le_refl _) (by omega)
      rw [leftmost_eq] at ea eb
      rw [ea, eb] at hab
      exact (sl_inj L _ L L a b h1 ht hL (le_refl _) (le_refl _) (by omega) (by omega) hab).2)
    (by intros; trivial) (by intros; rfl) order (fun k hk => (hmem k).1 hk) mem trivial
  intro l k hl hl' hk
  have : l = L := by omega
  subst this
  rw [hcl] at hk
  have e := key.2 k hk (Or.inl ((hmem k).2 hk))
  have e2 := memIndex_eq l _ l k h1 ht hL (le_refl _) (by omega)
  rw [← leftmost_eq] at e2
  rw [e2] at e
  refine ⟨?_, fun _ => e⟩
  rw [seg_leaf _ _ _ hk]
  intro f hf
  simp only [List.mem_singleton] at hf
  subst hf
  rw [e]; exact sub_refl _

theorem nodeBox_ok (bot top : α) (L : Nat) (faces : List Nat) (box : Nat → BBox α) (mem : Nat → BBox α) (l k : Nat)
    (h1 : 1 ≤ faces.length) (ht : faces.length ≤ 2 ^ 23) (hL : LeafDepth faces.length L) (hl : l + 1 ≤ L)
    (hk : k < levelCount L faces.length l) (hok : LevelsOK L faces box mem (l + 1)) :
    ∀ f ∈ seg L faces l k, Sub (box f) (nodeBox bot top faces box mem l k) := by
  have hp := Nat.two_pow_pos l
  have hh := levelCount_half L faces.length l hl
  have hc1 : 2 * k < levelCount L faces.length (l + 1) := by omega
  have eleft : leftmost (l + 1) = 2 * 2 ^ l - 1 := by rw [leftmost_eq, Nat.pow_succ]; omega
  have e1 : (2 ^ l - 1 + k) * 2 + 1 = 2 ^ (l + 1) - 1 + 2 * k := by rw [Nat.pow_succ]; omega
  have e2 : (2 ^ l - 1 + k) * 2 + 2 = 2 ^ (l + 1) - 1 + (2 * k + 1) := by rw [Nat.pow_succ]; omega
  -- the value read for child number `c` includes the boxes below that child
  have hget : ∀ c, c < levelCount L faces.length (l + 1) → ∀ f ∈ seg L faces (l + 1) c,
      Sub (box f) (if l + 1 = L then box (faces.getD (2 ^ (l + 1) - 1 + c - leftmost (l + 1)) 0)
        else mem (memIndex (2 ^ (l + 1) - 1 + c) (leftmost (l + 1)) (levelRightmost (rightmostRealLeaf L faces.length) L (l + 1)))) := by
    intro c hc f hf
    have hh := hok (l + 1) c (le_refl _) hl hc
    by_cases hlL : l + 1 = L
    · rw [if_pos hlL, leftmost_eq, Nat.add_sub_cancel_left, ← hh.2 hlL]; exact hh.1 f hf
    · rw [if_neg hlL, memIndex_eq L _ (l + 1) c h1 ht hL hl hc]; exact hh.1 f hf
  intro f hf
  rw [seg_split L faces l k hl, List.mem_append] at hf
  unfold nodeBox
  simp only
  rw [leafLevel_eq _ L h1 (by omega) hL, leftmost_eq l, e1, e2]
  rcases hf with hf | hf
  · have := hget (2 * k) hc1 f hf
    split
    · exact box_sub_trans this (box_sub_trans (sub_expandBox_right _ _) (sub_expandBox_left _ _))
    · exact box_sub_trans this (sub_expandBox_right _ _)
  · have hc2 : 2 * k + 1 < levelCount L faces.length (l + 1) := by
      by_contra hcon
      rw [seg_nil L faces (l + 1) (2 * k + 1) (by omega)] at hf
      simp at hf
    have hr : 2 ^ (l + 1) - 1 + (2 * k + 1) ≤ levelRightmost (rightmostRealLeaf L faces.length) L (l + 1) := by
      rw [levelRightmost_eq L _ (l + 1) h1 ht hL hl]; omega
    rw [if_pos hr]
    exact box_sub_trans (hget (2 * k + 1) hc2 f hf) (sub_expandBox_right _ _)

theorem buildLevel_ok (bot top : α) (L : Nat) (faces : List Nat) (box : Nat → BBox α) (order : List Nat) (mem : Nat → BBox α) (l : Nat)
    (h1 : 1 ≤ faces.length) (ht : faces.length ≤ 2 ^ 23) (hL : LeafDepth faces.length L) (hl : l + 1 ≤ L)
    (ho : order.Perm (List.range (nodesOnLevel faces.length l))) (hok : LevelsOK L faces box mem (l + 1)) :
    LevelsOK L faces box (buildLevel bot top faces box order mem l) l := by
  rw [nodesOnLevel_eq L _ l h1 ht hL (by omega)] at ho
  have hmem : ∀ k, k ∈ order ↔ k < levelCount L faces.length l := fun k => by rw [ho.mem_iff, List.mem_range]
  have eidx : ∀ k, k < levelCount L faces.length l →
      memIndex (leftmost l + k) (leftmost l) (levelRightmost (rightmostRealLeaf L faces.length) L l) = sl L faces.length l k := by
    intro k hk
    rw [← memIndex_eq L _ l k h1 ht hL (by omega) hk, leftmost_eq l]
  unfold buildLevel
  simp only
  rw [leafLevel_eq _ L h1 (by omega) hL]
  have key := foldl_upd (β := BBox α)
    (fun k => memIndex (leftmost l + k) (leftmost l) (levelRightmost (rightmostRealLeaf L faces.length) L l))
    (fun m k => nodeBox bot top faces box m l k) (fun m => LevelsOK L faces box m (l + 1))
    (fun k b => ∀ f ∈ seg L faces l k, Sub (box f) b) (levelCount L faces.length l)
    (by
      intro a b ha hb hab
      simp only [eidx a ha, eidx b hb] at hab
      exact (sl_inj L _ l l a b h1 ht hL (by omega) (by omega) ha hb hab).2)
    (by
      intro m k b hm hk
      intro l' k' hl1 hl2 hk'
      simp only [eidx k hk]
      have hne : sl L faces.length l' k' ≠ sl L faces.length l k := by
        intro e
        have := (sl_inj L _ l' l k' k h1 ht hL hl2 (by omega) hk' hk e).1
        omega
      rw [upd_other _ _ _ _ hne]
      exact hm l' k' hl1 hl2 hk')
    (fun m k hm hk => nodeBox_ok bot top L faces box m l k h1 ht hL hl hk hm)
    order (fun k hk => (hmem k).1 hk) mem hok
  intro l' k hl1 hl2 hk
  by_cases he : l' = l
  · subst he
    have e := key.2 k hk (Or.inl ((hmem k).2 hk))
    simp only [eidx k hk] at e
    exact ⟨e, fun h => by omega⟩
  · exact key.1 l' k (by omega) hl2 hk

theorem buildLevels_ok (bot top : α) (L : Nat) (faces : List Nat) (box : Nat → BBox α) (order : Nat → List Nat)
    (h1 : 1 ≤ faces.length) (ht : faces.length ≤ 2 ^ 23) (hL : LeafDepth faces.length L)
    (ho : CompleteOrder faces.length order) (n : Nat) (hn : n ≤ L) (mem : Nat → BBox α) (hok : LevelsOK L faces box mem n) :
    LevelsOK L faces box (buildLevels bot top faces box order n mem) 0 := by
  induction n generalizing mem with
  | zero => exact hok
  | succ n ih =>
    unfold buildLevels
    refine ih (by omega) _ (buildLevel_ok bot top L faces box (order n) mem n h1 ht hL hn ?_ hok)
    exact ho n (by rw [leafLevel_eq _ L h1 (by omega) hL]; omega)

theorem build_ok (bot top : α) (L : Nat) (faces : List Nat) (box : Nat → BBox α) (order : Nat → List Nat) (mem0 : Nat → BBox α)
    (h1 : 1 ≤ faces.length) (ht : faces.length ≤ 2 ^ 23) (hL : LeafDepth faces.length L) (ho : CompleteOrder faces.length order) :
    LevelsOK L faces box (build bot top faces box order mem0) 0 := by
  unfold build
  have hll := leafLevel_eq _ L h1 (by omega) hL
  rw [hll]
  exact buildLevels_ok bot top L faces box order h1 ht hL ho L (le_refl _) _
    (storeLeaves_ok L faces box _ mem0 h1 ht hL (ho L (by omega)))

/-- All overlapping pairs below a pair of nodes. -/
def expand (S C : Tree α) (bS bC : Nat → BBox α) (LS LC : Nat) (p : Nat × Nat) : List (Nat × Nat) :=
  ((seg LS S.faces (levelOf p.1) (p.1 - leftmost (levelOf p.1))) ×ˢ (seg LC C.faces (levelOf p.2) (p.2 - leftmost (levelOf p.2)))).filter
    (fun q => intersect (bS q.1) (bC q.2))

/-- A tree whose memory is correct for `box`. -/
structure TreeOK (T : Tree α) (L : Nat) (box : Nat → BBox α) : Prop where
  pos : 1 ≤ T.faces.length
  small : T.faces.length ≤ 2 ^ 23
  depth : LeafDepth T.faces.length L
  ok : LevelsOK L T.faces box T.mem 0

/-- Node `i` is number `k` of level `l` and real. -/
def NodeAt (L t i l k : Nat) : Prop := l ≤ L ∧ k < levelCount L t l ∧ i = 2 ^ l - 1 + k

theorem nodeAt_level {T : Tree α} {L : Nat} {box : Nat → BBox α} (hT : TreeOK T L box) {i l k : Nat}
    (h : NodeAt L T.faces.length i l k) : levelOf i = l ∧ i - leftmost l = k := by
  obtain ⟨h1, h2, rfl⟩ := h
  have := leafDepth_le _ L hT.depth 23 hT.small
  have hp := levelCount_le_pow L _ l hT.depth hT.pos h1
  refine ⟨levelOf_eq l k (by omega) (by omega), ?_⟩
  rw [leftmost_eq, Nat.add_sub_cancel_left]

theorem nodeBBox_eq {T : Tree α} {L : Nat} {box : Nat → BBox α} (hT : TreeOK T L box) {i l k : Nat}
    (h : NodeAt L T.faces.length i l k) : T.nodeBBox i = T.mem (sl L T.faces.length l k) := by
  unfold Tree.nodeBBox
  simp only
  rw [(nodeAt_level hT h).1, leafLevel_eq _ L hT.pos (by have := hT.small; omega) hT.depth]
  obtain ⟨h1, h2, rfl⟩ := h
  rw [memIndex_eq L _ l k hT.pos hT.small hT.depth h1 h2]

theorem isLeaf_iff {T : Tree α} {L : Nat} {box : Nat → BBox α} (hT : TreeOK T L box) {i l k : Nat}
    (h : NodeAt L T.faces.length i l k) : T.isLeaf i = decide (l = L) := by
  unfold Tree.isLeaf
  rw [(nodeAt_level hT h).1, leafLevel_eq _ L hT.pos (by have := hT.small; omega) hT.depth]

theorem leafFace_eq {T : Tree α} {L : Nat} {box : Nat → BBox α} (hT : TreeOK T L box) {i l k : Nat}
    (h : NodeAt L T.faces.length i l k) : T.leafFace i = T.faces.getD k 0 := by
  unfold Tree.leafFace
  rw [(nodeAt_level hT h).1, (nodeAt_level hT h).2]

/-- The children that are pushed are real nodes of the next level and their faces make up the faces of the node. -/
theorem children_spec {T : Tree α} {L : Nat} {box : Nat → BBox α} (hT : TreeOK T L box) {i l k : Nat}
    (h : NodeAt L T.faces.length i l k) (hl : l ≠ L) :
    (∀ c ∈ T.children i, ∃ k', NodeAt L T.faces.length c (l + 1) k') ∧ (T.children i).length ≤ 2 ∧
    (T.children i).flatMap (fun c => seg L T.faces (levelOf c) (c - leftmost (levelOf c))) = seg L T.faces l k := by
  have hlev := nodeAt_level hT h
  have hs := hT.small
  obtain ⟨h1, h2, hi⟩ := h
  have hp := Nat.two_pow_pos l
  have hl1 : l + 1 ≤ L := by omega
  have hh := levelCount_half L T.faces.length l hl1
  have e1 : i * 2 + 1 = 2 ^ (l + 1) - 1 + 2 * k := by rw [Nat.pow_succ]; omega
  have e2 : i * 2 + 2 = 2 ^ (l + 1) - 1 + (2 * k + 1) := by rw [Nat.pow_succ]; omega
  have hr : T.rightChildReal i = decide (2 * k + 1 < levelCount L T.faces.length (l + 1)) := by
    unfold Tree.rightChildReal
    simp only
    rw [hlev.1, leafLevel_eq _ L hT.pos (by omega) hT.depth, levelRightmost_eq L _ (l + 1) hT.pos hT.small hT.depth hl1, e2]
    congr 1
    have : 1 ≤ levelCount L T.faces.length (l + 1) := Nat.succ_pos _
    apply propext; omega
  have nc1 : NodeAt L T.faces.length (i * 2 + 1) (l + 1) (2 * k) := ⟨hl1, by omega, e1⟩
  have lc1 := nodeAt_level hT nc1
  unfold Tree.children
  rw [hr, seg_split L T.faces l k hl1]
  by_cases hc : 2 * k + 1 < levelCount L T.faces.length (l + 1)
  · have nc2 : NodeAt L T.faces.length (i * 2 + 2) (l + 1) (2 * k + 1) := ⟨hl1, hc, e2⟩
    have lc2 := nodeAt_level hT nc2
    simp only [hc, decide_true, if_true]
    refine ⟨?_, by simp, ?_⟩
    · intro c hcm
      simp only [List.mem_cons, List.not_mem_nil, or_false] at hcm
      rcases hcm with rfl | rfl
      · exact ⟨_, nc1⟩
      · exact ⟨_, nc2⟩
    · simp only [List.flatMap_cons, List.flatMap_nil, List.append_nil, lc1.1, lc1.2, lc2.1, lc2.2]
  · simp only [hc, decide_false]
    refine ⟨?_, by simp, ?_⟩
    · intro c hcm
      simp at hcm
      subst hcm
      exact ⟨_, nc1⟩
    · rw [seg_nil L T.faces (l + 1) (2 * k + 1) (by omega)]
      simp only [Bool.false_eq_true, if_false, List.flatMap_cons, List.flatMap_nil, List.append_nil, lc1.1, lc1.2]

theorem product_flatMap_right {β γ ι : Type*} (as : List β) (js : List ι) (f : ι → List γ) :
    (js.flatMap (fun j => as ×ˢ f j)).Perm (as ×ˢ (js.flatMap f)) := by
  induction js with
  | nil => simp
  | cons j js ih =>
    simp only [List.flatMap_cons]
    refine (List.Perm.append_left _ ih).trans ?_
    have := List.flatMap_append_perm as (fun a => (f j).map (Prod.mk a)) (fun a => (js.flatMap f).map (Prod.mk a))
    simpa [SProd.sprod, List.product, List.map_append] using this

theorem product_flatMap_left {β γ ι : Type*} (is : List ι) (f : ι → List β) (bs : List γ) :
    is.flatMap (fun i => f i ×ˢ bs) = (is.flatMap f) ×ˢ bs := by
  induction is with
  | nil => simp
  | cons i is ih =>
    simp only [List.flatMap_cons, ih]
    simp [SProd.sprod, List.product]

theorem filter_flatMap' {β γ : Type*} (l : List β) (f : β → List γ) (p : γ → Bool) :
    l.flatMap (fun x => (f x).filter p) = (l.flatMap f).filter p := by
  induction l with
  | nil => rfl
  | cons x l ih => simp [ih]

theorem intersect_mono (a b c d : BBox α) (h1 : Sub a c) (h2 : Sub b d) (h : intersect a b = true) : intersect c d = true := by
  have s1 := (C37_intersect_symm_mono a b c).2 h1 h
  rw [(C37_intersect_symm_mono c b c).1] at s1
  have s2 := (C37_intersect_symm_mono b c d).2 h2 s1
  rw [(C37_intersect_symm_mono d c c).1] at s2
  exact s2

/-- Both nodes of a queued pair are real. -/
def PairOK (S C : Tree α) (LS LC : Nat) (p : Nat × Nat) (a b : Nat) : Prop :=
  (∃ k, NodeAt LS S.faces.length p.1 a k) ∧ (∃ k, NodeAt LC C.faces.length p.2 b k)

theorem visit_spec (S C : Tree α) (bS bC : Nat → BBox α) (LS LC : Nat) (hS : TreeOK S LS bS) (hC : TreeOK C LC bC) (p : Nat × Nat)
    (a b : Nat) (hp : PairOK S C LS LC p a b) :
    ((visit S C p).1 ++ (visit S C p).2.flatMap (expand S C bS bC LS LC)).Perm (expand S C bS bC LS LC p) ∧
    (visit S C p).2.length ≤ 4 ∧
    ∀ q ∈ (visit S C p).2, ∃ a' b', PairOK S C LS LC q a' b' ∧ a' ≤ LS ∧ b' ≤ LC ∧ (LS - a') + (LC - b') < (LS - a) + (LC - b) := by
  obtain ⟨⟨k, hk⟩, ⟨r, hr⟩⟩ := hp
  have lk := nodeAt_level hS hk
  have lr := nodeAt_level hC hr
  have okS := (hS.ok a k (Nat.zero_le _) hk.1 hk.2.1)
  have okC := (hC.ok b r (Nat.zero_le _) hr.1 hr.2.1)
  unfold visit
  rw [nodeBBox_eq hS hk, nodeBBox_eq hC hr, isLeaf_iff hS hk, isLeaf_iff hC hr]
  by_cases hov : intersect (S.mem (sl LS S.faces.length a k)) (C.mem (sl LC C.faces.length b r)) = true
  · rw [if_pos hov]
    by_cases hal : a = LS <;> by_cases hbl : b = LC
    · -- two leaves
      subst hal; subst hbl
      have kl := levelCount_leaf a S.faces.length hS.pos
      have rl := levelCount_leaf b C.faces.length hC.pos
      have e : expand S C bS bC a b p = [(S.faces.getD k 0, C.faces.getD r 0)] := by
        unfold expand
        rw [lk.1, lr.1, lk.2, lr.2, seg_leaf _ _ _ (by have := hk.2.1; omega), seg_leaf _ _ _ (by have := hr.2.1; omega)]
        rw [okS.2 rfl, okC.2 rfl] at hov
        simp only [List.product_cons, List.map_cons, List.map_nil, List.nil_product, List.append_nil]
        rw [List.filter_cons_of_pos (by exact hov), List.filter_nil]
      simp only [decide_true, Bool.and_self, if_true]
      rw [e, leafFace_eq hS hk, leafFace_eq hC hr]
      simp
    · subst hal
      have ch := children_spec hC hr hbl
      simp only [hbl, decide_true, decide_false, Bool.false_and, Bool.not_false, Bool.and_self, Bool.false_eq_true, if_false, if_true,
        List.nil_append]
      refine ⟨?_, by rw [List.length_map]; omega, ?_⟩
      · rw [List.flatMap_map]
        unfold expand
        simp only
        rw [filter_flatMap', lr.1, lr.2, ← ch.2.2]
        exact (product_flatMap_right _ _ _).filter _
      · intro q hq
        rw [List.mem_map] at hq
        obtain ⟨c, hc, rfl⟩ := hq
        obtain ⟨k', hk'⟩ := ch.1 c hc
        exact ⟨a, b + 1, ⟨⟨k, hk⟩, ⟨k', hk'⟩⟩, hk.1, hk'.1, by have := hk'.1; omega⟩
    · subst hbl
      have ch := children_spec hS hk hal
      simp only [hal, decide_true, decide_false, Bool.and_false, Bool.false_and, Bool.not_false, Bool.and_self, Bool.false_eq_true, if_false,
        if_true, List.nil_append]
      refine ⟨?_, by rw [List.length_map]; omega, ?_⟩
      · rw [List.flatMap_map]
        unfold expand
        simp only
        rw [filter_flatMap', lk.1, lk.2, ← ch.2.2, product_flatMap_left]
      · intro q hq
        rw [List.mem_map] at hq
        obtain ⟨c, hc, rfl⟩ := hq
        obtain ⟨k', hk'⟩ := ch.1 c hc
        exact ⟨a + 1, b, ⟨⟨k', hk'⟩, ⟨r, hr⟩⟩, hk'.1, hr.1, by have := hk'.1; omega⟩
    · have ch := children_spec hS hk hal
      have dh := children_spec hC hr hbl
      simp only [hal, hbl, decide_false, Bool.and_false, Bool.false_and, Bool.not_false, Bool.false_eq_true, if_false, List.nil_append]
      refine ⟨?_, ?_, ?_⟩
      · rw [List.flatMap_assoc]
        simp only [List.flatMap_map]
        unfold expand
        simp only
        simp only [filter_flatMap']
        rw [lk.1, lk.2, lr.1, lr.2, ← ch.2.2, ← dh.2.2]
        apply List.Perm.filter
        rw [← product_flatMap_left]
        apply List.Perm.flatMap_left
        intro c _
        exact product_flatMap_right _ _ _
      · rw [List.length_flatMap]
        simp only [List.length_map]
        have h1 := ch.2.1
        have h2 := dh.2.1
        generalize S.children p.1 = x at h1
        generalize (C.children p.2).length = y at h2
        match x, h1 with
        | [], _ => simp
        | [_], _ => simp; omega
        | [_, _], _ => simp; omega
        | _ :: _ :: _ :: _, h => simp at h
      · intro q hq
        rw [List.mem_flatMap] at hq
        obtain ⟨c, hc, hq⟩ := hq
        rw [List.mem_map] at hq
        obtain ⟨d, hd, rfl⟩ := hq
        obtain ⟨k', hk'⟩ := ch.1 c hc
        obtain ⟨r', hr'⟩ := dh.1 d hd
        exact ⟨a + 1, b + 1, ⟨⟨k', hk'⟩, ⟨r', hr'⟩⟩, hk'.1, hr'.1, by have := hk'.1; omega⟩
  · rw [if_neg hov]
    have : expand S C bS bC LS LC p = [] := by
      unfold expand
      rw [lk.1, lr.1, lk.2, lr.2, List.filter_eq_nil_iff]
      rintro ⟨f, g⟩ hfg hi
      rw [List.mem_product] at hfg
      exact hov (intersect_mono _ _ _ _ (okS.1 f hfg.1) (okC.1 g hfg.2) hi)
    rw [this]
    simp

/-- A queue with a bound on the remaining work. -/
inductive QOK (S C : Tree α) (LS LC : Nat) : List (Nat × Nat) → Nat → Prop
  | nil : QOK S C LS LC [] 0
  | cons (p q a b n) : PairOK S C LS LC p a b → a ≤ LS → b ≤ LC → QOK S C LS LC q n →
      QOK S C LS LC (p :: q) (n + 5 ^ ((LS - a) + (LC - b)))

theorem QOK.append {S C : Tree α} {LS LC : Nat} {q q' : List (Nat × Nat)} {n n' : Nat} (h : QOK S C LS LC q n) (h' : QOK S C LS LC q' n') :
    QOK S C LS LC (q ++ q') (n + n') := by
  induction h with
  | nil => simpa using h'
  | cons p q a b n hp ha hb _ ih =>
    have := QOK.cons p _ a b _ hp ha hb ih
    rw [show n + n' + 5 ^ ((LS - a) + (LC - b)) = n + 5 ^ ((LS - a) + (LC - b)) + n' by omega] at this
    exact this

theorem QOK.of_all {S C : Tree α} {LS LC : Nat} (m : Nat) (q : List (Nat × Nat))
    (h : ∀ p ∈ q, ∃ a b, PairOK S C LS LC p a b ∧ a ≤ LS ∧ b ≤ LC ∧ (LS - a) + (LC - b) < m + 1) :
    ∃ n, QOK S C LS LC q n ∧ n ≤ q.length * 5 ^ m := by
  induction q with
  | nil => exact ⟨0, QOK.nil, by simp⟩
  | cons p q ih =>
    obtain ⟨n, hn, hle⟩ := ih (fun x hx => h x (by simp [hx]))
    obtain ⟨a, b, hp, ha, hb, hlt⟩ := h p (by simp)
    refine ⟨_, QOK.cons p q a b n hp ha hb hn, ?_⟩
    have : 5 ^ ((LS - a) + (LC - b)) ≤ 5 ^ m := Nat.pow_le_pow_right (by omega) (by omega)
    rw [List.length_cons, Nat.add_mul, Nat.one_mul]
    omega

theorem traverse_spec (S C : Tree α) (bS bC : Nat → BBox α) (LS LC : Nat) (hS : TreeOK S LS bS) (hC : TreeOK C LC bC)
    (fuel n : Nat) (hf : n ≤ fuel) (q out : List (Nat × Nat)) (hq : QOK S C LS LC q n) :
    ∃ res, traverse S C fuel q out = some res ∧ res.Perm (out ++ q.flatMap (expand S C bS bC LS LC)) := by
  induction fuel generalizing q out n with
  | zero =>
    cases hq with
    | nil => exact ⟨out, by simp [traverse], by simp⟩
    | cons p q a b n _ _ _ _ =>
      have := Nat.pow_pos (n := (LS - a) + (LC - b)) (show 0 < 5 by omega)
      omega
  | succ fuel ih =>
    cases hq with
    | nil => exact ⟨out, by simp [traverse], by simp⟩
    | cons p q a b n hp ha hb hq =>
      have hv := visit_spec S C bS bC LS LC hS hC p a b hp
      unfold traverse
      simp only
      have hwork : ∃ n', QOK S C LS LC (visit S C p).2 n' ∧ n' < 5 ^ ((LS - a) + (LC - b)) := by
        rcases hm : (LS - a) + (LC - b) with _ | m
        · have : (visit S C p).2 = [] := by
            rw [List.eq_nil_iff_forall_not_mem]
            intro x hx
            obtain ⟨_, _, _, _, _, hlt⟩ := hv.2.2 x hx
            omega
          rw [this]; exact ⟨0, QOK.nil, by simp⟩
        · obtain ⟨n', h1, h2⟩ := QOK.of_all (S := S) (C := C) (LS := LS) (LC := LC) m (visit S C p).2 (by rw [← hm]; exact hv.2.2)
          refine ⟨n', h1, Nat.lt_of_le_of_lt h2 ?_⟩
          have h4 := hv.2.1
          have hpos := Nat.pow_pos (n := m) (show 0 < 5 by omega)
          rw [Nat.pow_succ]
          have := Nat.mul_le_mul_right (5 ^ m) h4
          omega
      obtain ⟨n', hn', hlt⟩ := hwork
      obtain ⟨res, hres, hperm⟩ := ih (n + n') (by omega) (q ++ (visit S C p).2) (out ++ (visit S C p).1) (hq.append hn')
      refine ⟨res, hres, hperm.trans ?_⟩
      rw [List.flatMap_append, List.flatMap_cons, List.append_assoc]
      apply List.Perm.append_left
      refine List.Perm.trans (List.Perm.append_left _ List.perm_append_comm) ?_
      rw [← List.append_assoc]
      exact List.Perm.append_right _ hv.1

theorem leafDepth_exists (t : Nat) (h1 : 1 ≤ t) (ht : t ≤ 2 ^ 32) : ∃ L, LeafDepth t L := by
  obtain ⟨L, hL, -⟩ := nextPowerOfTwo_spec t h1 ht
  exact ⟨L, hL⟩

theorem traverse_det (S C : Tree α) (n m : Nat) (q out : List (Nat × Nat)) (r r' : List (Nat × Nat))
    (h : traverse S C n q out = some r) (h' : traverse S C m q out = some r') : r = r' := by
  induction n generalizing m q out with
  | zero =>
    cases q with
    | nil => simp [traverse] at h h'; rw [← h, ← h']
    | cons => simp [traverse] at h
  | succ n ih =>
    cases q with
    | nil => simp [traverse] at h h'; rw [← h, ← h']
    | cons p q =>
      cases m with
      | zero => simp [traverse] at h'
      | succ m =>
        simp only [traverse] at h h'
        exact ih _ _ _ h h'

end Mcut.Bvh
