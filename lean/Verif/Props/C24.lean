import Verif.Lemmas.C24

/-! # C24: the triangulation and its face map correspond under every schedule -/
namespace Mcut.CC
open Mcut.Sched
variable {D F : Type}

/-- **C24.** For every component, block structure, order in which the threads reserve their part, order of all stores, and
every history of queries: the cached triangulation consists of the triangles of each face, whole faces in some order, and
the cached map names, for triangle `k`, the client's face of triangle `k`. -/
theorem C24_caches (c : Comp D F) (ok : Ok c) (k : Cache) (hk : Caches c k) (t m : List Nat) (ht : k.tri = some t)
    (hm : k.triMap = some m) : Corresponds c t m := by
  obtain ⟨avail, bs, order, h1, h2, rfl, h4⟩ := (caches_ok ok hk).tri t ht
  rw [h4] at hm
  split at hm
  · simp at hm
  · injection hm with hm; subst hm
    exact corresponds_of ok h1 h2

/-- **C24 (what the client gets).** Triangulating and copying, with the default winding order and the sizes that were
queried, in any order of threads: the two arrays that arrive correspond. -/
theorem C24_copies (c : Comp D F) (ok : Ok c) (hfm : c.fmap ≠ []) (k : Cache) (hk : Caches c k) (env env' : Env)
    (he : EnvOk c .tri env) (hr : env'.reversed = false) :
    ∃ k' t m, query c k env .tri 0 false true = (k', .size (t.length * 4)) ∧
      query c k' env' .triMap 0 false true = (k', .size (m.length * 4)) ∧
      query c k' env' .tri (t.length * 4) true false = (k', .writes [arrayWrites 4 (t.map .u32)]) ∧
      query c k' env' .triMap (m.length * 4) true false = (k', .writes [arrayWrites 4 (m.map .u32)]) ∧
      Corresponds c t m ∧ t.length = 3 * m.length := by
  obtain ⟨k', hf, C', t, ht⟩ := fillTri_some ok (caches_ok ok hk) he
  obtain ⟨avail, bs, order, h1, h2, h3, h4⟩ := C'.tri t ht
  rw [if_neg hfm] at h4
  have hf' : fillTri c k' env' = .ok k' := by simp [fillTri, ht]
  have hc := corresponds_of ok h1 h2
  have hbd : ∀ b ∈ order, ∀ i ∈ blockIndices b, i < c.faces.length := fun b hb => blocks_bound h1 b (h2.mem_iff.1 hb)
  have hlen : t.length = 3 * (order.flatMap (triMapLocal c)).length := by
    rw [h3]
    clear h3 h4 hc h2
    induction order with
    | nil => rfl
    | cons b l ih =>
      simp only [List.flatMap_cons, List.length_append, Nat.mul_add]
      rw [ih (fun b' hb' => hbd b' (by simp [hb'])), triMapLocal_length ok b (hbd b (by simp))]
  refine ⟨k', t, order.flatMap (triMapLocal c), ?_, ?_, ?_, ?_, h3 ▸ hc, hlen⟩
  · simp only [query]; rw [hf]; simp [ht]
  · simp only [query]; rw [if_neg hfm, h4]; simp
  · simp only [query]; rw [hf']; simp only [ht, Option.getD_some, Bool.true_eq_false, if_false]
    rw [if_neg (by omega), if_neg (by omega), hr, if_neg (by decide), copyWords_full _ _ (by omega)]
  · simp only [query]; rw [if_neg hfm, h4]; simp only [Bool.true_eq_false, if_false]
    rw [if_neg (by omega), if_neg (by omega), copyWords_full _ _ (by omega)]

-- one triangle for face 7, two for face 5
example : Ok triSquare ∧ Corresponds triSquare [0, 2, 3, 0, 3, 4, 0, 1, 2] [5, 5, 7] := by
  refine ⟨⟨rfl, by simp [triSquare], by simp [triSquare, bigComp], by simp [triSquare, bigComp], by simp [triSquare, bigComp], by simp [triSquare, bigComp],
    fun _ _ => by simp [triSquare], Or.inr rfl, by decide, by decide⟩, [1, 0], by decide, by decide, by decide⟩

end Mcut.CC
