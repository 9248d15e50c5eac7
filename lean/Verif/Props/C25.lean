import Verif.Props.C24
/-! # C25: the triangulation map can be queried in any order -/
namespace Mcut.CC
open Mcut.Sched
variable {D F : Type}

/-- **C25 (after the triangulation).** Once the triangulation was queried, size query and copy of its face map work, for
every later history. -/
theorem C25_after_triangulation_partial (c : Comp D F) (ok : Ok c) (hfm : c.fmap ≠ []) (k : Cache) (hk : Caches c k)
    (ht : k.tri ≠ none) (env : Env) (b : Nat) :
    ∃ m, k.triMap = some m ∧ query c k env .triMap b false true = (k, .size (m.length * 4)) ∧
      query c k env .triMap (m.length * 4) true false = (k, .writes [arrayWrites 4 (m.map .u32)]) := by
  cases h : k.tri with
  | none => exact absurd h ht
  | some t =>
    obtain ⟨_, _, order, -, -, -, h4⟩ := (caches_ok ok hk).tri t h
    rw [if_neg hfm] at h4
    refine ⟨_, h4, ?_, ?_⟩
    · simp only [query]; rw [if_neg hfm, h4]; simp
    · simp only [query]; rw [if_neg hfm, h4]; simp only [Bool.true_eq_false, if_false]
      rw [if_neg (by omega), if_neg (by omega), copyWords_full _ _ (by omega)]

/-- A query of the triangulation, even one that only asks for the size, is enough. -/
theorem C25_triangulation_query (c : Comp D F) (ok : Ok c) (k : Cache) (hk : Caches c k) (env : Env) (he : EnvOk c .tri env)
    (bytes : Nat) (mem num : Bool) : (query c k env .tri bytes mem num).1.tri ≠ none := by
  obtain ⟨k', hf, -, t, ht⟩ := fillTri_some ok (caches_ok ok hk) he
  have : (query c k env .tri bytes mem num).1 = k' := by
    simp only [query]; rw [hf]; simp only
    repeat' split
    all_goals rfl
  rw [this, ht]; simp

/-- **C25 is violated by the code.** For every component with face maps whose triangulation was not queried before, in
every history and for all arguments, the query of the triangulation's face map ends in undefined behaviour: the nested
query stores the size through a null pointer. -/
theorem C25_map_first_fails (c : Comp D F) (ok : Ok c) (hfm : c.fmap ≠ []) (k : Cache) (hk : Caches c k) (ht : k.tri = none)
    (env : Env) (he : EnvOk c .triMap env) (bytes : Nat) (mem num : Bool) : (query c k env .triMap bytes mem num).2 = .ub := by
  have C := caches_ok ok hk
  obtain ⟨k', hf, -⟩ := fillTri_some ok C he.flag
  simp only [query]
  rw [if_neg hfm, C.triNone ht]
  simp only
  rw [hf]

-- a fresh component is such a history, and a triangulated one is a history of the other kind
example : Caches triSquare Cache.empty ∧ Cache.empty.tri = none ∧ triSquare.fmap ≠ [] := ⟨.fresh, rfl, by simp [triSquare]⟩
example : (query triSquare Cache.empty ⟨1, false, fun _ => [], [(0, 2)], [(0, 0), (1, 1), (2, 2), (3, 0), (4, 2), (5, 3), (6, 0), (7, 3), (8, 4)], [(0, 7), (1, 5), (2, 5)]⟩ .tri 0 false true).1
    = ⟨none, none, some [0, 1, 2, 0, 2, 3, 0, 3, 4], some [7, 5, 5], []⟩ := by decide

end Mcut.CC
