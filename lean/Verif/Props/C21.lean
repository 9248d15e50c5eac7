import Verif.Lemmas.PsView

/-! # C21: size query, then full copy, returns the whole array -/
namespace Mcut.CC
open Mcut.Sched
variable {D F : Type}

/-- **C21.** For every component, every history of earlier queries and all thread schedules: when the size query of a
flag succeeds with `n`, then `n` is the size in bytes of the complete array, and a following query with `n` bytes
stores every element of that array exactly once at its place, and stores nothing else. For the faces this needs
`SafeFace`, without which the code has a data race, see `C21_face_race_fails`. -/
theorem C21_size_then_copy_partial (c : Comp D F) (ok : Ok c) (k k' : Cache) (hk : Caches c k) (flag : Flag) (env env' : Env)
    (he : EnvOk c flag env) (he' : EnvOk c flag env') (b0 n : Nat) (hq : query c k env flag b0 false true = (k', .size n)) (num : Bool)
    (safe : flag = .face → SafeFace c.faces.length env'.avail) :
    ∃ th, (query c k' env' flag n true num).2 = .writes th ∧
      n = byteSize (elems c env'.reversed (k'.tri.getD []) (k'.triMap.getD []) flag) ∧
      th.flatten.Perm (arrayWrites (unit flag) (elems c env'.reversed (k'.tri.getD []) (k'.triMap.getD []) flag)) := by
  have C := caches_ok ok hk
  have C' : CacheOk c k' := by have := query_cacheOk ok C env flag he b0 false true; rw [hq] at this; exact this
  have B := ok.bound
  have ha := he'.avail
  cases flag with
  | vertexFloat =>
    simp only [query, if_true] at hq
    injection hq with h1 h2; injection h2 with h2; subst h1; subst h2
    have e3 : c.verts.length * 12 / 4 / 3 = c.verts.length := by omega
    obtain ⟨th, h3, h4⟩ := par_full 4 (c.verts.map (floats c.toF)) env'.avail 1024
      (fun b => floatLoop c.toF c.verts.length (b.1 * 3) (slice c.verts b))
      (by simpa using List.length_pos_iff.2 ok.verts) ha (by decide) (by simp; omega) (by
        intro b hb1 hb2 hb3
        simp only [List.length_map] at hb1 hb3
        rw [floatLoop_full _ _ _ _ (by rw [slice_length _ _ hb3]; omega), pre_const _ 3 (by intro x; rfl) _ _ (by omega), slice_map]; rfl)
    refine ⟨th, ?_, ?_, ?_⟩
    · simp only [query, Bool.true_eq_false, if_false]
      rw [if_neg (by omega), if_neg (by omega), e3]
      simpa using h3
    · simp only [elems]; rw [byteSize_flatMap _ 12 (by intro x; rfl)]
    · rw [h4]; exact List.Perm.refl _
  | vertexDouble =>
    simp only [query, if_true] at hq
    injection hq with h1 h2; injection h2 with h2; subst h1; subst h2
    have e3 : c.verts.length * 24 / 8 / 3 = c.verts.length := by omega
    obtain ⟨th, h3, h4⟩ := par_full 8 (c.verts.map (doubles (F := F))) env'.avail 1024
      (fun b => doubleLoop c.verts.length (b.1 * 3) (slice c.verts b))
      (by simpa using List.length_pos_iff.2 ok.verts) ha (by decide) (by simp; omega) (by
        intro b hb1 hb2 hb3
        simp only [List.length_map] at hb1 hb3
        rw [doubleLoop_full _ _ _ (by rw [slice_length _ _ hb3]; omega), pre_const _ 3 (by intro x; rfl) _ _ (by omega), slice_map]; rfl)
    refine ⟨th, ?_, ?_, ?_⟩
    · simp only [query, Bool.true_eq_false, if_false]
      rw [if_neg (by omega), if_neg (by omega), e3]
      simpa using h3
    · simp only [elems]; rw [byteSize_flatMap _ 24 (by intro x; rfl)]
    · rw [h4]; exact List.Perm.refl _
  | perturbation =>
    simp only [query, if_true] at hq
    injection hq with h1 h2; injection h2 with h2; subst h1; subst h2
    refine ⟨_, by simp only [query, Bool.true_eq_false, if_false]; rw [if_neg (by decide), if_neg (by decide)], rfl, ?_⟩
    exact List.Perm.refl _
  | face =>
    simp only [query, if_true] at hq
    rw [countAll_eq ok he.avail _ rfl] at hq
    injection hq with h1 h2; injection h2 with h2; subst h1; subst h2
    obtain ⟨k', hf⟩ := fillSizes_some (k := k) ok ha
    obtain ⟨-, hs⟩ := fillSizes_ok C hf
    have e3 : c.faces.flatten.length * 4 / 4 = (c.faces.map List.length).sum := by rw [List.length_flatten]; omega
    have hlen : ∀ f : List Nat, ((if env'.reversed = true then f.reverse else f).map (Cell.u32 : Nat → Cell D F)).length = f.length := by
      intro f; split <;> simp
    have hpre : ∀ i, pre (c.faces.map (fun f => (if env'.reversed = true then f.reverse else f).map (Cell.u32 : Nat → Cell D F))) i = pre c.faces i := by
      intro i
      simp only [pre, ← List.map_take, List.map_map]
      congr 1; apply List.map_congr_left; intro f _; exact hlen f
    obtain ⟨th, h3, h4⟩ := par_full' 4 (c.faces.map (fun f => (if env'.reversed = true then f.reverse else f).map (Cell.u32 : Nat → Cell D F))) env'.avail (1 <<< 14)
      (fun b => faceOuter env'.reversed (c.faces.map List.length).sum (startOf (env'.ps b) (c.faces.map List.length) b) (slice c.faces b))
      (by simpa using List.length_pos_iff.2 ok.faces) ha (by decide) (by simp; omega) (by
        intro b hb1 hb2 hb3 hmem
        simp only [List.length_map] at hb1 hb3 hmem
        rw [face_view ok he' (safe rfl) b hmem, startOf_eq _ _ hb1, faceOuter_full, slice_map, hpre]
        have e1 : c.faces = (c.faces.take b.1 ++ slice c.faces b) ++ c.faces.drop b.2 := by
          simp only [slice]
          conv_lhs => rw [← List.take_append_drop b.1 c.faces, ← List.take_append_drop (b.2 - b.1) (c.faces.drop b.1)]
          rw [List.drop_drop, List.append_assoc]; congr 3; omega
        conv_rhs => rw [e1]
        simp [pre])
    refine ⟨th, ?_, ?_, ?_⟩
    · simp only [query, Bool.true_eq_false, if_false]
      rw [if_neg (by omega), hf]
      simp only [hs, Option.getD_some]
      rw [e3]
      simpa using h3
    · simp only [elems]; rw [byteSize_u32]
      simp only [List.length_flatMap, List.length_flatten]
      congr 2; apply List.map_congr_left; intro f _; split <;> simp
    · rw [h4]
      simp only [elems, unit, List.flatMap, List.map_flatten, List.map_map]
      exact List.Perm.refl _
  | faceSize =>
    simp only [query, if_true] at hq
    injection hq with h1 h2; injection h2 with h2; subst h1; subst h2
    obtain ⟨k', hf⟩ := fillSizes_some (k := k) ok ha
    obtain ⟨-, hs⟩ := fillSizes_ok C hf
    refine ⟨[copyWords (c.faces.map List.length) c.faces.length], ?_, ?_, ?_⟩
    · simp only [query, Bool.true_eq_false, if_false]
      rw [if_neg (by omega), if_neg (by omega), hf]
      simp only [hs, Option.getD_some]
    · simp only [elems]; rw [show c.faces.map (fun f => Cell.u32 f.length) = (c.faces.map List.length).map (Cell.u32 : Nat → Cell D F) by simp, byteSize_u32]; simp
    · simp only [List.flatten_cons, List.flatten_nil, List.append_nil]
      rw [copyWords_full _ _ (by simp)]; simp [elems, unit, Function.comp_def]
  | adj =>
    simp only [query, if_true] at hq
    rw [countAll_eq ok he.avail _ ok.adj] at hq
    injection hq with h1 h2; injection h2 with h2; subst h1; subst h2
    obtain ⟨k', hf⟩ := fillAdjSizes_some (k := k) ok ha
    obtain ⟨-, hs⟩ := fillAdjSizes_ok C hf
    have hpre : ∀ i, pre (c.adj.map (fun f => f.map (Cell.u32 : Nat → Cell D F))) i = pre c.adj i := by
      intro i
      simp only [pre, ← List.map_take, List.map_map]
      congr 1; apply List.map_congr_left; intro f _; simp
    obtain ⟨th, h3, h4⟩ := par_full' 4 (c.adj.map (fun f => f.map (Cell.u32 : Nat → Cell D F))) env'.avail 1024
      (fun b => adjOuter (startOf (env'.ps b) (c.adj.map List.length) b) (slice c.adj b))
      (by have := List.length_pos_iff.2 ok.faces; have := ok.adj; simp; omega) ha (by decide) (by have := ok.adj; simp; omega) (by
        intro b hb1 hb2 hb3 hmem
        simp only [List.length_map] at hb1 hb3 hmem
        rw [adj_view ok he' b hmem, startOf_eq _ _ hb1, adjOuter_full, slice_map, hpre])
    refine ⟨th, ?_, ?_, ?_⟩
    · simp only [query, Bool.true_eq_false, if_false]
      rw [if_neg (by omega), hf]
      simp only [hs, Option.getD_some]
      rw [List.length_map, ok.adj] at h3
      exact h3
    · simp only [elems]; rw [byteSize_u32]
    · rw [h4]
      simp only [elems, unit, List.map_flatten]
      exact List.Perm.refl _
  | adjSize =>
    simp only [query, if_true] at hq
    injection hq with h1 h2; injection h2 with h2; subst h1; subst h2
    obtain ⟨k', hf⟩ := fillAdjSizes_some (k := k) ok ha
    obtain ⟨-, hs⟩ := fillAdjSizes_ok C hf
    refine ⟨[copyWords (c.adj.map List.length) c.faces.length], ?_, ?_, ?_⟩
    · simp only [query, Bool.true_eq_false, if_false]
      rw [if_neg (by omega), if_neg (by omega), hf]
      simp only [hs, Option.getD_some]
    · simp only [elems]; rw [show c.adj.map (fun f => Cell.u32 f.length) = (c.adj.map List.length).map (Cell.u32 : Nat → Cell D F) by simp, byteSize_u32]; simp [ok.adj]
    · simp only [List.flatten_cons, List.flatten_nil, List.append_nil]
      rw [copyWords_full _ _ (by simp [ok.adj])]; simp [elems, unit, Function.comp_def]
  | edge =>
    simp only [query, if_true] at hq
    injection hq with h1 h2; injection h2 with h2; subst h1; subst h2
    obtain ⟨th, h3, h4⟩ := par_full 4 (c.edges.map (fun e => [(Cell.u32 e.1 : Cell D F), .u32 e.2])) env'.avail 1024
      (fun b => edgeLoop (b.1 * 2) (slice c.edges b))
      (by simpa using List.length_pos_iff.2 ok.edges) ha (by decide) (by simp; omega) (by
        intro b hb1 hb2 hb3
        simp only [List.length_map] at hb1 hb3
        rw [edgeLoop_full, pre_const _ 2 (by intro x; rfl) _ _ (by omega), slice_map]; rfl)
    refine ⟨th, ?_, ?_, ?_⟩
    · simp only [query, Bool.true_eq_false, if_false]
      rw [if_neg (by omega), if_neg (by omega)]
      simpa using h3
    · simp only [elems]; rw [byteSize_flatMap _ 8 (by intro x; rfl)]
    · rw [h4]; exact List.Perm.refl _
  | type =>
    simp only [query, scalar, if_true] at hq
    injection hq with h1 h2; injection h2 with h2; subst h1; subst h2
    exact ⟨_, rfl, rfl, List.Perm.refl _⟩
  | fragLocation =>
    simp only [query, scalar, if_true] at hq
    split at hq
    · simp at hq
    rename_i ht
    injection hq with h1 h2; injection h2 with h2; subst h1; subst h2
    exact ⟨_, by simp only [query, if_neg ht]; rfl, rfl, List.Perm.refl _⟩
  | patchLocation =>
    simp only [query, scalar, if_true] at hq
    split at hq
    · simp at hq
    rename_i ht
    injection hq with h1 h2; injection h2 with h2; subst h1; subst h2
    exact ⟨_, by simp only [query, if_neg ht]; rfl, rfl, List.Perm.refl _⟩
  | sealType =>
    simp only [query, scalar, if_true] at hq
    split at hq
    · simp at hq
    rename_i ht
    injection hq with h1 h2; injection h2 with h2; subst h1; subst h2
    exact ⟨_, by simp only [query, if_neg ht]; rfl, rfl, List.Perm.refl _⟩
  | origin =>
    simp only [query, scalar, if_true] at hq
    split at hq
    · simp at hq
    rename_i ht
    injection hq with h1 h2; injection h2 with h2; subst h1; subst h2
    exact ⟨_, by simp only [query, if_neg ht]; rfl, rfl, List.Perm.refl _⟩
  | seamVertex =>
    simp only [query, if_true] at hq
    split at hq
    · simp at hq
    rename_i ht
    injection hq with h1 h2; injection h2 with h2; subst h1; subst h2
    obtain ⟨th, h3, h4⟩ := par_full 4 (c.seam.map (fun e => [(Cell.u32 e : Cell D F)])) env'.avail 1024
      (fun b => seamLoop c.seam.length b.1 (slice c.seam b))
      (by simpa using List.length_pos_iff.2 (ok.seam ht)) ha (by decide) (by simp; omega) (by
        intro b hb1 hb2 hb3
        simp only [List.length_map] at hb1 hb3
        rw [seamLoop_full _ _ _ (by rw [slice_length _ _ hb3]; omega), pre_const _ 1 (by intro x; rfl) _ _ (by omega), slice_map, single_flatten]; simp)
    refine ⟨th, ?_, ?_, ?_⟩
    · simp only [query, Bool.true_eq_false, if_false, if_neg ht]
      rw [if_neg (by omega), if_neg (by omega), Nat.mul_div_cancel _ (by decide)]
      simpa using h3
    · simp only [elems]; rw [byteSize_u32]
    · rw [h4, single_flatten]; exact List.Perm.refl _
  | seamSeq =>
    simp only [query, if_true] at hq
    split at hq
    · simp at hq
    rename_i ht
    have hne := ok.seq ht
    have hk2 : (if k.seq = [] then { k with seq := c.seq } else k).seq = c.seq := by
      rcases C.seq with h | h <;> simp [h, hne]
    rw [hk2] at hq
    injection hq with h1 h2; injection h2 with h2; subst h1; subst h2
    generalize (if k.seq = [] then { k with seq := c.seq } else k) = k2 at *
    refine ⟨[copyWords c.seq c.seq.length], ?_, ?_, ?_⟩
    · simp only [query, Bool.true_eq_false, if_false, if_neg ht, hk2, if_neg hne]
      rw [if_neg (by omega), if_neg (by omega), Nat.mul_div_cancel _ (by decide)]
    · simp only [elems]; rw [byteSize_u32]
    · simp only [List.flatten_cons, List.flatten_nil, List.append_nil]
      rw [copyWords_full _ _ (by omega)]; exact List.Perm.refl _
  | vertexMap =>
    simp only [query, if_true] at hq
    split at hq
    · simp at hq
    rename_i ht
    injection hq with h1 h2; injection h2 with h2; subst h1; subst h2
    obtain ⟨th, h3, h4⟩ := par_full 4 (c.vmap.map (fun e => [(Cell.u32 (userVertex c e) : Cell D F)])) env'.avail 1024
      (fun b => mapLoop (userVertex c) c.vmap.length b.1 (slice c.vmap b))
      (by simpa using List.length_pos_iff.2 ht) ha (by decide) (by simp; omega) (by
        intro b hb1 hb2 hb3
        simp only [List.length_map] at hb1 hb3
        rw [mapLoop_full _ _ _ _ (by rw [slice_length _ _ hb3]; omega), pre_const _ 1 (by intro x; rfl) _ _ (by omega), slice_map, single_flatten]; simp)
    refine ⟨th, ?_, ?_, ?_⟩
    · simp only [query, Bool.true_eq_false, if_false, if_neg ht]
      rw [if_neg (by omega), if_neg (by omega), Nat.mul_div_cancel _ (by decide)]
      simpa using h3
    · simp only [elems]
      rw [show c.vmap.map (fun v => Cell.u32 (userVertex c v)) = (c.vmap.map (userVertex c)).map (Cell.u32 : Nat → Cell D F) by simp, byteSize_u32]; simp
    · rw [h4, single_flatten]; exact List.Perm.refl _
  | faceMap =>
    simp only [query, if_true] at hq
    split at hq
    · simp at hq
    rename_i ht
    injection hq with h1 h2; injection h2 with h2; subst h1; subst h2
    have hfl := ok.fmap.resolve_left ht
    obtain ⟨th, h3, h4⟩ := par_full 4 (c.fmap.map (fun e => [(Cell.u32 (userFace c e) : Cell D F)])) env'.avail 1024
      (fun b => mapLoop (userFace c) c.fmap.length b.1 (slice c.fmap b))
      (by simpa using List.length_pos_iff.2 ht) ha (by decide) (by simp; omega) (by
        intro b hb1 hb2 hb3
        simp only [List.length_map] at hb1 hb3
        rw [mapLoop_full _ _ _ _ (by rw [slice_length _ _ hb3]; omega), pre_const _ 1 (by intro x; rfl) _ _ (by omega), slice_map, single_flatten]; simp)
    refine ⟨th, ?_, ?_, ?_⟩
    · simp only [query, Bool.true_eq_false, if_false, if_neg ht]
      rw [if_neg (by omega), if_neg (by omega), Nat.mul_div_cancel _ (by decide)]
      simpa using h3
    · simp only [elems]
      rw [show c.fmap.map (fun v => Cell.u32 (userFace c v)) = (c.fmap.map (userFace c)).map (Cell.u32 : Nat → Cell D F) by simp, byteSize_u32]; simp
    · rw [h4, single_flatten]; exact List.Perm.refl _
  | tri =>
    simp only [query, if_true] at hq
    obtain ⟨k2, hf, C2, t, ht⟩ := fillTri_some ok C he
    rw [hf] at hq
    simp only [ht, Option.getD_some] at hq
    injection hq with h1 h2; injection h2 with h2; subst h1; subst h2
    have hf2 : fillTri c k2 env' = .ok k2 := by simp [fillTri, ht]
    obtain ⟨avail, bs, order, hb1, hb2, hb3, -⟩ := C2.tri t ht
    have hm : t.length % 3 = 0 := by
      rw [hb3]; exact flatMap_mod3 _ _ (fun b hb => triLocal_mod3 ok b (blocks_bound hb1 b (hb2.mem_iff.1 hb)))
    simp only [query, Bool.true_eq_false, if_false]
    rw [hf2]
    simp only [ht, Option.getD_some]
    rw [if_neg (by omega), if_neg (by omega)]
    by_cases hr : env'.reversed = true
    · rw [if_pos hr]
      refine ⟨_, rfl, ?_, ?_⟩
      · simp only [elems, hr, if_true]; rw [byteSize_u32]; simp
      · simp only [List.flatten_cons, List.flatten_nil, List.append_nil, elems, hr, if_true, unit]
        have : arrayWrites 4 (t.reverse.map Cell.u32) = (t.mapIdx (fun i v => (4 * (t.length - 1 - i), (Cell.u32 v : Cell D F)))).reverse := by
          unfold arrayWrites
          apply List.ext_getElem
          · simp
          · intro i hi1 hi2
            simp only [List.length_mapIdx, List.length_map, List.length_reverse] at hi1
            simp only [List.getElem_mapIdx, List.getElem_map, List.getElem_reverse, List.length_mapIdx]
            congr 1; omega
        rw [this]; exact (List.reverse_perm _).symm
    · rw [if_neg hr]
      refine ⟨_, rfl, ?_, ?_⟩
      · simp only [elems, if_neg hr]; rw [byteSize_u32]
      · simp only [List.flatten_cons, List.flatten_nil, List.append_nil, elems, if_neg hr, unit]
        rw [copyWords_full _ _ (by omega)]
  | triMap =>
    simp only [query, if_true] at hq
    split at hq
    · simp at hq
    rename_i hfm
    split at hq
    · obtain ⟨k2, hf, -⟩ := fillTri_some ok C he.flag
      rw [hf] at hq; simp at hq
    rename_i m hm
    injection hq with h1 h2; injection h2 with h2; subst h1; subst h2
    simp only [query, Bool.true_eq_false, if_false, if_neg hfm, hm, Option.getD_some]
    rw [if_neg (by omega), if_neg (by omega)]
    refine ⟨_, rfl, ?_, ?_⟩
    · simp only [elems]; rw [byteSize_u32]
    · simp only [List.flatten_cons, List.flatten_nil, List.append_nil, elems, unit]
      rw [copyWords_full _ _ (by omega)]
  | other => simp [query] at hq

/-- **C21 (size queries succeed).** The size query of every flag that is valid for the component succeeds, whatever was
queried before. -/
theorem C21_size_query (c : Comp D F) (ok : Ok c) (k : Cache) (hk : Caches c k) (flag : Flag) (hv : Valid c k flag) (env : Env)
    (he : EnvOk c flag env) (b0 : Nat) : ∃ k' n, query c k env flag b0 false true = (k', .size n) := by
  have C := caches_ok ok hk
  cases flag <;> simp only [Valid] at hv <;> simp only [query, scalar, if_true]
  case face => rw [countAll_eq ok he.avail _ rfl]; exact ⟨_, _, rfl⟩
  case adj => rw [countAll_eq ok he.avail _ ok.adj]; exact ⟨_, _, rfl⟩
  case fragLocation => rw [if_neg (by simpa using hv)]; exact ⟨_, _, rfl⟩
  case sealType => rw [if_neg (by simpa using hv)]; exact ⟨_, _, rfl⟩
  case patchLocation => rw [if_neg (by tauto)]; exact ⟨_, _, rfl⟩
  case origin => rw [if_neg (by tauto)]; exact ⟨_, _, rfl⟩
  case seamVertex => rw [if_neg hv]; exact ⟨_, _, rfl⟩
  case seamSeq => rw [if_neg hv]; exact ⟨_, _, rfl⟩
  case vertexMap => rw [if_neg hv]; exact ⟨_, _, rfl⟩
  case faceMap => rw [if_neg hv]; exact ⟨_, _, rfl⟩
  case tri =>
    obtain ⟨k', h, -⟩ := fillTri_some ok C he
    rw [h]; exact ⟨_, _, rfl⟩
  case triMap =>
    obtain ⟨h1, h2⟩ := hv
    rw [if_neg h1]
    cases ht : k.tri with
    | none => exact absurd ht h2
    | some t =>
      obtain ⟨_, _, order, -, -, -, hm⟩ := C.tri t ht
      rw [if_neg h1] at hm
      rw [hm]; exact ⟨_, _, rfl⟩
  all_goals exact ⟨_, _, rfl⟩

/-- **C21 is violated for the faces of large components.** With three compute threads and 24576 faces there is an
interleaving in which `parallel_partial_sum` has returned before the second thread added its offset. The copy uses two
blocks where the prefix sum used three, the calling thread starts its block from an unfinished entry, and what reaches the
client is not the face array. -/
theorem C21_face_race_fails :
    ∃ (env : Env) (th : List (List (Write Nat Nat))), env.avail = 3 ∧ PsViews ((bigComp (6 * 4096)).faces.map List.length) 3 (2 ^ 14) env.ps ∧
      (query (bigComp (6 * 4096)) Cache.empty env .face (byteSize (elems (bigComp (6 * 4096)) false [] [] .face)) true true).2 = .writes th ∧
      ¬ th.flatten.Perm (arrayWrites (unit .face) (elems (bigComp (6 * 4096)) false [] [] .face)) :=
  face_race 4096 (by decide) (by decide) (by decide +kernel) (by decide +kernel)

-- the component used here meets the hypotheses, and a small one with one thread too
example : Ok (bigComp 2) ∧ EnvOk (bigComp 2) .adj ⟨1, false, fun _ => sums 0 [1, 1], [(0, 2)], [(1, 0), (0, 0), (2, 0), (5, 0), (4, 0), (3, 0)], [(0, 0), (1, 0)]⟩ ∧
    Valid (bigComp 2) Cache.empty .adj := by
  refine ⟨⟨rfl, by simp [bigComp], by simp [bigComp], by simp [bigComp], by simp [bigComp], by simp [bigComp], fun _ _ => rfl, Or.inl rfl, by decide, by decide⟩,
    ⟨by decide, ⟨by simp, fun _ => psViews_one [1, 1] 1024 (by simp) (by decide) (by decide)⟩, ?_, by decide, by decide⟩, trivial⟩
  intro bs h
  have : parallelForBlocks 2 1 1024 = .ok [(0, 2)] := by decide
  have h' : parallelForBlocks 2 1 1024 = .ok bs := h
  rw [this] at h'; injection h' with h'; subst h'; exact List.Perm.refl _

end Mcut.CC
