import Verif.Lemmas.C22

/-! # C22: a data query never writes beyond the caller's buffer -/
namespace Mcut.CC
open Mcut.Sched
variable {D F : Type}

/-- **C22 (checked flags).** For these flags, whatever size the caller passes, the query either fails or stores only inside
the first `bytes` bytes. -/
theorem C22_checked_partial (c : Comp D F) (k : Cache) (env : Env) (flag : Flag) (hf : Checked env.reversed flag) (bytes : Nat)
    (mem num : Bool) (th : List (List (Write D F))) (h : (query c k env flag bytes mem num).2 = .writes th) : Inside bytes th := by
  have hsz : ∀ (n : Nat), (if num = true then (Out.size n : Out D F) else .ub) ≠ .writes th := by
    intro n; split <;> simp
  cases flag <;> simp only [Checked] at hf <;> simp only [query] at h
  case type => exact scalar_inside hsz h
  case fragLocation =>
    split at h
    · simp at h
    exact scalar_inside hsz h
  case patchLocation =>
    split at h
    · simp at h
    exact scalar_inside hsz h
  case sealType =>
    split at h
    · simp at h
    exact scalar_inside hsz h
  case origin =>
    split at h
    · simp at h
    exact scalar_inside hsz h
  case seamSeq =>
    generalize (if k.seq = [] then { k with seq := c.seq } else k) = k2 at h
    split at h
    · simp at h
    split at h
    · exact absurd h (hsz _)
    split at h
    · simp at h
    split at h
    · simp at h
    exact one_inside h (copyWords_inside _ _ _ (by omega))
  case vertexMap =>
    split at h
    · simp at h
    split at h
    · exact absurd h (hsz _)
    split at h
    · simp at h
    split at h
    · simp at h
    exact par_inside h (fun b => mapLoop_inside _ _ _ (by omega) _ _)
  case faceMap =>
    split at h
    · simp at h
    split at h
    · exact absurd h (hsz _)
    split at h
    · simp at h
    split at h
    · simp at h
    exact par_inside h (fun b => mapLoop_inside _ _ _ (by omega) _ _)
  case tri =>
    split at h
    · rename_i o e
      have h' : o = .writes th := h
      subst h'
      unfold fillTri at e
      split at e
      · simp at e
      · unfold triangulate at e
        split at e
        · simp at e
        · simp at e
        · simp only at e
          split at e
          · simp at e
          · split at e <;> simp at e
    · split at h
      · exact absurd h (hsz _)
      split at h
      · simp at h
      split at h
      · simp at h
      rw [hf] at h
      exact one_inside h (copyWords_inside _ _ _ (by omega))
  case triMap =>
    split at h
    · simp at h
    split at h
    · split at h
      · rename_i o e
        have h' : o = .writes th := h
        subst h'
        unfold fillTri at e
        split at e
        · simp at e
        · unfold triangulate at e
          split at e
          · simp at e
          · simp at e
          · simp only at e
            split at e
            · simp at e
            · split at e <;> simp at e
      · simp at h
    · split at h
      · exact absurd h (hsz _)
      split at h
      · simp at h
      split at h
      · simp at h
      exact one_inside h (copyWords_inside _ _ _ (by omega))
  case other => simp at h

/-- **C22 (full copies).** A query with exactly the size that the size query returned stores only inside the buffer, for
every flag (for the faces under `SafeFace`, see `C21_face_race_fails`). -/
theorem C22_full_copy_partial (c : Comp D F) (ok : Ok c) (k k' : Cache) (hk : Caches c k) (flag : Flag) (env env' : Env)
    (he : EnvOk c flag env) (he' : EnvOk c flag env') (b0 n : Nat) (hq : query c k env flag b0 false true = (k', .size n)) (num : Bool)
    (safe : flag = .face → SafeFace c.faces.length env'.avail)
    (th : List (List (Write D F))) (h : (query c k' env' flag n true num).2 = .writes th) : Inside n th := by
  obtain ⟨th', h1, h2, h3⟩ := C21_size_then_copy_partial c ok k k' hk flag env env' he he' b0 n hq num safe
  rw [h1] at h; injection h with h; subst h
  intro t ht w hw
  have hm := h3.mem_iff.1 (List.mem_flatten.2 ⟨t, ht, hw⟩)
  rw [h2]
  exact arrayWrites_inside flag _ _ (elems_size c _ _ _ flag) w hm

/-- **C22 (oversized requests).** For every flag except the faces and the adjacent faces: once a size query has returned `n`, a request for more than `n` bytes is refused
and nothing is stored. -/
theorem C22_oversized_refused (c : Comp D F) (k k' : Cache) (flag : Flag) (hf : flag ≠ .face ∧ flag ≠ .adj) (env env' : Env) (b0 n : Nat)
    (hq : query c k env flag b0 false true = (k', .size n)) (bytes : Nat) (hb : n < bytes) (num : Bool) :
    (query c k' env' flag bytes true num).2 = .invalidArgument := by
  cases flag <;> simp only [query, scalar, if_true, ne_eq, not_true_eq_false, false_and, and_false, reduceCtorEq, not_false_eq_true, Bool.true_eq_false, if_false] at hf hq ⊢
  case vertexFloat => simp only [Prod.mk.injEq, Out.size.injEq] at hq; rw [if_pos (by omega)]
  case vertexDouble => simp only [Prod.mk.injEq, Out.size.injEq] at hq; rw [if_pos (by omega)]
  case perturbation => simp only [Prod.mk.injEq, Out.size.injEq] at hq; rw [if_pos (by omega)]
  case faceSize => simp only [Prod.mk.injEq, Out.size.injEq] at hq; rw [if_pos (by omega)]
  case adjSize => simp only [Prod.mk.injEq, Out.size.injEq] at hq; rw [if_pos (by omega)]
  case edge => simp only [Prod.mk.injEq, Out.size.injEq] at hq; rw [if_pos (by omega)]
  case type => simp only [Prod.mk.injEq, Out.size.injEq] at hq; rw [if_pos (by omega)]
  case fragLocation =>
    split at hq
    · simp at hq
    · simp only [Prod.mk.injEq, Out.size.injEq] at hq
      rw [if_neg (by assumption), if_pos (by omega)]
  case patchLocation =>
    split at hq
    · simp at hq
    · simp only [Prod.mk.injEq, Out.size.injEq] at hq
      rw [if_neg (by assumption), if_pos (by omega)]
  case sealType =>
    split at hq
    · simp at hq
    · simp only [Prod.mk.injEq, Out.size.injEq] at hq
      rw [if_neg (by assumption), if_pos (by omega)]
  case origin =>
    split at hq
    · simp at hq
    · simp only [Prod.mk.injEq, Out.size.injEq] at hq
      rw [if_neg (by assumption), if_pos (by omega)]
  case seamVertex =>
    split at hq
    · simp at hq
    · simp only [Prod.mk.injEq, Out.size.injEq] at hq
      rw [if_neg (by assumption), if_pos (by omega)]
  case seamSeq =>
    split at hq
    · simp at hq
    · rename_i ht
      simp only [Prod.mk.injEq, Out.size.injEq] at hq
      obtain ⟨rfl, hn⟩ := hq
      rw [if_neg ht]
      by_cases hk : k.seq = []
      · simp only [hk, if_true] at hn ⊢
        by_cases hc : c.seq = []
        · simp only [hc, if_true] at hn ⊢
          rw [if_pos (by omega)]
        · simp only [hc, if_false]
          rw [if_pos (by omega)]
      · simp only [hk, if_false] at hn ⊢
        rw [if_pos (by omega)]
  case vertexMap =>
    split at hq
    · simp at hq
    · simp only [Prod.mk.injEq, Out.size.injEq] at hq
      rw [if_neg (by assumption), if_pos (by omega)]
  case faceMap =>
    split at hq
    · simp at hq
    · simp only [Prod.mk.injEq, Out.size.injEq] at hq
      rw [if_neg (by assumption), if_pos (by omega)]
  case tri =>
    have hfill : ∀ k2, fillTri c k env = .ok k2 → fillTri c k2 env' = .ok k2 := by
      intro k2 h
      unfold fillTri at h ⊢
      split at h
      · rename_i x hx
        obtain rfl : k = k2 := by simpa using h
        rw [hx]
      · unfold triangulate at h
        split at h
        · simp at h
        · simp at h
        · simp only at h
          split at h
          · obtain rfl := by simpa using h
            rfl
          · split at h
            · simp at h
            · obtain rfl := by simpa using h
              rfl
    split at hq
    · rename_i o e
      exfalso
      simp only [Prod.mk.injEq] at hq
      obtain ⟨-, rfl⟩ := hq
      unfold fillTri at e
      split at e
      · simp at e
      · unfold triangulate at e
        split at e
        · simp at e
        · simp at e
        · simp only at e
          split at e
          · simp at e
          · split at e <;> simp at e
    · rename_i k2 e
      simp only [Prod.mk.injEq, Out.size.injEq] at hq
      obtain ⟨rfl, hn⟩ := hq
      rw [hfill _ e]
      simp only
      rw [if_pos (by omega)]
  case triMap =>
    split at hq
    · simp at hq
    · rename_i hm
      rw [if_neg hm]
      cases hk : k.triMap with
      | none =>
        rw [hk] at hq
        simp only at hq
        split at hq
        · rename_i o e
          exfalso
          simp only [Prod.mk.injEq] at hq
          obtain ⟨-, rfl⟩ := hq
          unfold fillTri at e
          split at e
          · simp at e
          · unfold triangulate at e
            split at e
            · simp at e
            · simp at e
            · simp only at e
              split at e
              · simp at e
              · split at e <;> simp at e
        · simp at hq
      | some m =>
        rw [hk] at hq
        simp only [Prod.mk.injEq, Out.size.injEq] at hq
        obtain ⟨rfl, hn⟩ := hq
        rw [hk]
        simp only
        rw [if_pos (by omega)]

/-- **C22 is violated when a caller asks for less than everything.** With a destination smaller than the array — sizes
that the query accepts — the perturbation vector, faces, face sizes, adjacent faces and their sizes, edges, seam vertices
and the triangulation with reversed winding order are written past the end of the caller's buffer, even for a mesh of two
triangles and one thread. -/
theorem C22_partial_copy_fails : ∀ x ∈ ([(.perturbation, 0, false), (.face, 4, false), (.faceSize, 4, false), (.adj, 4, false),
      (.adjSize, 4, false), (.edge, 8, false), (.seamVertex, 0, false), (.tri, 12, true)] : List (Flag × Nat × Bool)),
    ∃ th, (query twoTris Cache.empty (soloEnv x.1 x.2.2) x.1 x.2.1 true false).2 = .writes th ∧ ¬ Inside x.2.1 th := by
  have key : ∀ (th : List (List (Write Nat Nat))) (n : Nat), (∃ w ∈ th.flatten, n < w.1 + w.2.size) → ¬ Inside n th := by
    intro th n ⟨w, hw, hlt⟩ h
    obtain ⟨t, ht, hw⟩ := List.mem_flatten.1 hw
    have := h t ht w hw; omega
  intro x hx
  simp only [List.mem_cons, List.not_mem_nil, or_false] at hx
  rcases hx with rfl | rfl | rfl | rfl | rfl | rfl | rfl | rfl
  all_goals (refine ⟨_, rfl, key _ _ ?_⟩)
  · exact ⟨(0, .f64 0), by decide, by decide⟩
  · exact ⟨(4, .u32 0), by decide, by decide⟩
  · exact ⟨(4, .u32 3), by decide, by decide⟩
  · exact ⟨(4, .u32 0), by decide, by decide⟩
  · exact ⟨(4, .u32 1), by decide, by decide⟩
  · exact ⟨(8, .u32 1), by decide, by decide⟩
  · exact ⟨(0, .u32 0), by decide, by decide⟩
  · exact ⟨(20, .u32 0), by decide, by decide⟩

/-- **C22 is violated by vertex queries with two or more threads.** Asking for the first `m` vertices of a component whose
vertices are divided among several threads: the threads after the first never stop. Here: 1025 vertices, two threads,
room for one vertex. -/
theorem C22_vertices_fail : ∃ (env : Env) (th : List (List (Write Nat Nat))), env.avail = 2 ∧
    (query (manyVerts 1025) Cache.empty env .vertexFloat 12 true false).2 = .writes th ∧ ¬ Inside 12 th := by
  have hbs : parallelForBlocks 1025 2 1024 = .ok [(0, 512), (512, 1025)] := by decide +kernel
  have hv : (manyVerts 1025).verts.length = 1025 := by unfold manyVerts; simp only [List.length_replicate]
  refine ⟨⟨2, false, fun _ => [], [], [], []⟩, [(0, 512), (512, 1025)].map (fun b => floatLoop id 1 (b.1 * 3) (slice (manyVerts 1025).verts b)), rfl, ?_, ?_⟩
  · simp only [query, Bool.true_eq_false, if_false, hv]
    rw [if_neg (by decide), if_neg (by decide)]
    simp only [par, hbs]
    rfl
  · intro h
    have e : slice (manyVerts 1025).verts (512, 1025) = (0, 0, 0) :: List.replicate 512 (0, 0, 0) := by
      unfold slice manyVerts
      simp only [List.drop_replicate, List.take_replicate]
      rfl
    have := h (floatLoop id 1 (512 * 3) (slice (manyVerts 1025).verts (512, 1025))) (by simp) _ (by rw [e]; exact floatLoop_first 1 _ _ _ (by decide))
    simp [Cell.size] at this

example : Inside 12 [[(0, (.u32 1 : Cell Nat Nat)), (8, .u32 2)]] ∧ ¬ Inside 11 [[(8, (.u32 2 : Cell Nat Nat))]] := by
  constructor
  · intro t ht w hw
    simp at ht; subst ht
    simp at hw
    rcases hw with rfl | rfl <;> decide
  · intro h; have := h [(8, .u32 2)] (by simp) (8, .u32 2) (by simp); simp [Cell.size] at this

end Mcut.CC
