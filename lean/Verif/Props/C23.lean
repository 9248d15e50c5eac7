import Verif.Lemmas.C23

/-! # C23: reversed winding order -/
namespace Mcut.CC
open Mcut.Sched
variable {D F : Type}

/-- **C23 (faces).** Querying size and then the faces with that many bytes, in any history, with any number of threads: in
the default winding order the client gets the concatenated faces, in the reversed order the concatenation of the reversed
faces, that is the same faces at the same places, each backwards. The caches the two queries leave behind are equal. -/
theorem C23_faces_partial (c : Comp D F) (ok : Ok c) (k : Cache) (hk : Caches c k) (env envD envR : Env)
    (he : EnvOk c .face env) (hD : EnvOk c .face envD) (hR : EnvOk c .face envR)
    (rD : envD.reversed = false) (rR : envR.reversed = true) (b0 : Nat)
    (sD : SafeFace c.faces.length envD.avail) (sR : SafeFace c.faces.length envR.avail) :
    ∃ n thD thR, query c k env .face b0 false true = (k, .size n) ∧
      (query c k envD .face n true true).2 = .writes thD ∧ (query c k envR .face n true true).2 = .writes thR ∧
      thD.flatten.Perm (arrayWrites 4 (c.faces.flatten.map .u32)) ∧
      thR.flatten.Perm (arrayWrites 4 ((c.faces.map List.reverse).flatten.map .u32)) ∧
      (query c k envD .face n true true).1 = (query c k envR .face n true true).1 := by
  have hq : query c k env .face b0 false true = (k, .size (c.faces.flatten.length * 4)) := by
    simp only [query, if_true]; rw [countAll_eq ok he.avail _ rfl]
  obtain ⟨thD, h1, h2, h3⟩ := C21_size_then_copy_partial c ok k k hk .face env envD he hD b0 _ hq true (fun _ => sD)
  obtain ⟨thR, h4, h5, h6⟩ := C21_size_then_copy_partial c ok k k hk .face env envR he hR b0 _ hq true (fun _ => sR)
  refine ⟨_, thD, thR, hq, h1, h4, ?_, ?_, ?_⟩
  · simpa [elems, rD, unit] using h3
  · have e : (c.faces.map List.reverse).flatten = c.faces.flatMap List.reverse := (List.flatMap_def ..).symm
    rw [e]; simpa only [elems, rR, unit, if_true] using h6
  · obtain ⟨kD, hfD⟩ := fillSizes_some (k := k) ok hD.avail
    obtain ⟨kR, hfR⟩ := fillSizes_some (k := k) ok hR.avail
    have e : kD = kR := by
      unfold fillSizes at hfD hfR
      cases hs : k.sizes with
      | some s => rw [hs] at hfD hfR; injection hfD with a; injection hfR with b; rw [← a, ← b]
      | none =>
        rw [hs] at hfD hfR; simp only at hfD hfR
        split at hfD <;> [skip; (simp at hfD; done); (simp at hfD; done)]
        split at hfR <;> [skip; (simp at hfR; done); (simp at hfR; done)]
        injection hfD with a; injection hfR with b; rw [← a, ← b]
    subst e
    simp only [query, Bool.true_eq_false, if_false, Nat.mul_mod_left, ne_eq, not_true_eq_false]
    rw [hfD, hfR]

/-- **C23 (nothing else).** The bound winding order does not influence any other flag except the triangulation, nor the
caches of any flag. -/
theorem C23_other_flags (c : Comp D F) (k : Cache) (env : Env) (r : Bool) (flag : Flag) (bytes : Nat) (mem num : Bool) :
    (flag ≠ .face → flag ≠ .tri → query c k { env with reversed := r } flag bytes mem num = query c k env flag bytes mem num) ∧
    (query c k { env with reversed := r } flag bytes mem num).1 = (query c k env flag bytes mem num).1 ∧
    query c k { env with reversed := r } flag bytes false num = query c k env flag bytes false num := by
  refine ⟨fun h1 h2 => ?_, ?_, ?_⟩
  · cases flag <;> first | rfl | contradiction
  · cases flag <;> try rfl
    · simp only [query]
      have : fillSizes c k { env with reversed := r } = fillSizes c k env := rfl
      rw [this]; clear this
      repeat' split
      all_goals first | rfl | (rename_i a b; rw [a] at b; injection b with b; subst b; rfl) | simp_all
    · simp only [query]
      have : fillTri c k { env with reversed := r } = fillTri c k env := rfl
      rw [this]; clear this
      split
      · rfl
      · split
        · rfl
        split
        · rfl
        split
        · rfl
        split <;> split <;> rfl
  · cases flag <;> rfl

/-- **C23 (triangulation).** With the reversed order the triangulation arrives backwards as a whole: every triangle is
reversed, and so is the order of the triangles. -/
theorem C23_triangulation_partial (c : Comp D F) (ok : Ok c) (k : Cache) (hk : Caches c k) (t : List Nat) (ht : k.tri = some t)
    (env : Env) (hr : env.reversed = true) (num : Bool) :
    ∃ th, query c k env .tri (t.length * 4) true num = (k, .writes th) ∧ th.flatten.Perm (arrayWrites 4 (t.reverse.map .u32)) ∧
      (t.reverse = (triples t).reverse.flatMap List.reverse) := by
  have C := caches_ok ok hk
  obtain ⟨avail, bs, order, hb1, hb2, hb3, -⟩ := C.tri t ht
  have hm : t.length % 3 = 0 := by
    rw [hb3]; exact flatMap_mod3 _ _ (fun b hb => triLocal_mod3 ok b (blocks_bound hb1 b (hb2.mem_iff.1 hb)))
  have hf : fillTri c k env = .ok k := by simp [fillTri, ht]
  refine ⟨[t.mapIdx (fun i v => (4 * (t.length - 1 - i), .u32 v))], ?_, ?_, ?_⟩
  · simp only [query, Bool.true_eq_false, if_false]
    rw [hf]
    simp only [ht, Option.getD_some]
    rw [if_neg (by omega), if_neg (by omega), if_pos hr]
  · simp only [List.flatten_cons, List.flatten_nil, List.append_nil]
    have : arrayWrites 4 (t.reverse.map Cell.u32) = (t.mapIdx (fun i v => (4 * (t.length - 1 - i), (Cell.u32 v : Cell D F)))).reverse := by
      unfold arrayWrites
      apply List.ext_getElem
      · simp
      · intro i hi1 hi2
        simp only [List.length_mapIdx, List.length_map, List.length_reverse] at hi1
        simp only [List.getElem_mapIdx, List.getElem_map, List.getElem_reverse, List.length_mapIdx]
        congr 1; omega
    rw [this]; exact (List.reverse_perm _).symm
  · have : (triples t).flatten = t := triples_flatten (t.length / 3) t (by omega)
    conv_lhs => rw [← this]
    rw [List.reverse_flatten, List.flatMap_def, List.map_reverse]

/-- **C23 is violated by the triangulation's face map.** In the reversed winding order triangle 0 of the delivered
triangulation does not belong to the face that entry 0 of the delivered map names: there is a component, a history and a
vertex of that triangle which is not a vertex of any face with that number. -/
theorem C23_triangulation_map_fails : ∃ (c : Comp Nat Nat) (k : Cache) (env : Env) (th thm : List (List (Write Nat Nat))) (v f : Nat),
    Ok c ∧ Caches c k ∧ env.reversed = true ∧
    (query c k env .tri 36 true true).2 = .writes th ∧ (query c k env .triMap 12 true true).2 = .writes thm ∧
    ((0, .u32 v) : Write Nat Nat) ∈ th.flatten ∧ ((0, .u32 f) : Write Nat Nat) ∈ thm.flatten ∧
    ∀ i < c.faces.length, userFace c (c.fmap.getD i 0) = f → v ∉ c.faces.getD i [] := by
  let e : Env := ⟨1, true, fun _ => [], [(0, 2)], [(0, 0), (1, 1), (2, 2), (3, 0), (4, 2), (5, 3), (6, 0), (7, 3), (8, 4)], [(0, 7), (1, 5), (2, 5)]⟩
  have he : EnvOk triSquare .tri e := by
    refine ⟨by decide, ⟨by simp, by simp⟩, ?_, by decide, by decide⟩
    intro bs h
    have : parallelForBlocks 2 1 1024 = .ok [(0, 2)] := by decide
    have h' : parallelForBlocks 2 1 1024 = .ok bs := h
    rw [this] at h'; injection h' with h'; subst h'; exact List.Perm.refl _
  have hk : (query triSquare Cache.empty e .tri 0 false true).1 = ⟨none, none, some [0, 1, 2, 0, 2, 3, 0, 3, 4], some [7, 5, 5], []⟩ := by decide
  refine ⟨triSquare, ⟨none, none, some [0, 1, 2, 0, 2, 3, 0, 3, 4], some [7, 5, 5], []⟩, e, _, _, 4, 7, ?_, hk ▸ .step .fresh .tri e he 0 false true, rfl, rfl, rfl, ?_, ?_, ?_⟩
  · exact ⟨rfl, by simp [triSquare], by simp [triSquare, bigComp], by simp [triSquare, bigComp], by simp [triSquare, bigComp], by simp [triSquare, bigComp],
      fun _ _ => by simp [triSquare], Or.inr rfl, by decide, by decide⟩
  · decide
  · decide
  · decide

-- faces of different sizes, the reversed winding order
example : Ok triSquare ∧
    EnvOk triSquare .face ⟨1, true, fun _ => sums 0 [3, 4], [(0, 2)], [(0, 0), (1, 1), (2, 2), (3, 0), (4, 2), (5, 3), (6, 0), (7, 3), (8, 4)], [(0, 7), (1, 5), (2, 5)]⟩ ∧
    faceOuter true 7 0 triSquare.faces =
      ([(0, .u32 2), (4, .u32 1), (8, .u32 0), (12, .u32 4), (16, .u32 3), (20, .u32 2), (24, .u32 0)] : List (Write Nat Nat)) := by
  refine ⟨⟨rfl, by simp [triSquare], by simp [triSquare, bigComp], by simp [triSquare, bigComp], by simp [triSquare, bigComp], by simp [triSquare, bigComp],
      fun _ _ => by simp [triSquare], Or.inr rfl, by decide, by decide⟩, ⟨by decide, ⟨fun _ => psViews_one [3, 4] (2 ^ 14) (by simp) (by decide) (by decide), by simp⟩, ?_, by decide, by decide⟩, by decide⟩
  intro bs h
  have : parallelForBlocks 2 1 1024 = .ok [(0, 2)] := by decide
  have h' : parallelForBlocks 2 1 1024 = .ok bs := h
  rw [this] at h'; injection h' with h'; subst h'; exact List.Perm.refl _

end Mcut.CC
