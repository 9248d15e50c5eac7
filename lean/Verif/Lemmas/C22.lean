import Verif.Spec.C22
import Verif.Props.C21

/-! Helper lemmas for `Props/C22.lean`. -/
namespace Mcut.CC
open Mcut.Sched
variable {D F : Type}

theorem copyWords_inside (l : List Nat) (n bytes : Nat) (h : 4 * n ≤ bytes) : ∀ w ∈ (copyWords l n : List (Write D F)), w.1 + w.2.size ≤ bytes := by
  intro w hw
  unfold copyWords at hw
  rw [List.mem_mapIdx] at hw
  obtain ⟨i, hi, rfl⟩ := hw
  simp [Cell.size] at hi ⊢; omega

theorem mapLoop_inside (f : Nat → Nat) (n bytes : Nat) (h : 4 * n ≤ bytes) : ∀ (vs : List Nat) (off : Nat),
    ∀ w ∈ (mapLoop f n off vs : List (Write D F)), w.1 + w.2.size ≤ bytes := by
  intro vs
  induction vs with
  | nil => intro off w hw; simp [mapLoop] at hw
  | cons v vs ih =>
    intro off w hw
    simp only [mapLoop] at hw
    split at hw
    · simp at hw
    · rcases List.mem_cons.1 hw with rfl | hw
      · simp [Cell.size]; omega
      · exact ih _ w hw

theorem par_inside {n avail m bytes : Nat} {body : Nat × Nat → List (Write D F)} {th : List (List (Write D F))}
    (h : par n avail m body = .writes th) (hb : ∀ b, ∀ w ∈ body b, w.1 + w.2.size ≤ bytes) : Inside bytes th := by
  unfold par at h
  split at h
  · injection h with h; subst h
    intro t ht w hw
    obtain ⟨b, -, rfl⟩ := List.mem_map.1 ht
    exact hb b w hw
  · simp at h
  · simp at h

theorem one_inside {l : List (Write D F)} {th : List (List (Write D F))} {bytes : Nat} (h : Out.writes [l] = .writes th)
    (hb : ∀ w ∈ l, w.1 + w.2.size ≤ bytes) : Inside bytes th := by
  injection h with h; subst h
  intro t ht w hw
  simp at ht; subst ht
  exact hb w hw

theorem scalar_inside {v bytes : Nat} {mem : Bool} {th : List (List (Write D F))} {g : Nat → Out D F} (hg : ∀ n, g n ≠ .writes th)
    (h : (match (scalar 4 v bytes mem : Out D F) with | .size n => g n | o => o) = .writes th) : Inside bytes th := by
  unfold scalar at h
  split at h
  · rename_i n e; exact absurd h (hg _)
  · rename_i o e
    split at h
    · cases h
    split at h
    · cases h
    split at h
    · cases h
    exact one_inside h (copyWords_inside _ _ _ (by omega))

theorem arrayWrites_inside (flag : Flag) (u : Nat) (l : List (Cell D F)) (h : ∀ x ∈ l, x.size = u) :
    ∀ w ∈ arrayWrites u l, w.1 + w.2.size ≤ byteSize l := by
  intro w hw
  unfold arrayWrites at hw
  rw [List.mem_mapIdx] at hw
  obtain ⟨i, hi, rfl⟩ := hw
  have e : byteSize l = l.length * u := by
    unfold byteSize
    have : l.map Cell.size = l.map (fun _ => u) := List.map_congr_left h
    rw [this, List.map_const']; simp
  simp only [h _ (List.getElem_mem hi)]
  rw [e]
  have : u * (i + 1) ≤ u * l.length := Nat.mul_le_mul_left _ hi
  have e2 : u * (i + 1) = u * i + u := by ring
  rw [Nat.mul_comm l.length]; omega

theorem elems_size (c : Comp D F) (rev : Bool) (t m : List Nat) (flag : Flag) : ∀ x ∈ elems c rev t m flag, x.size = unit flag := by
  intro x hx
  cases flag
  case vertexFloat =>
    obtain ⟨v, -, hx⟩ := List.mem_flatMap.1 hx
    simp [floats] at hx
    rcases hx with rfl | rfl | rfl <;> rfl
  case vertexDouble =>
    obtain ⟨v, -, hx⟩ := List.mem_flatMap.1 hx
    simp [doubles] at hx
    rcases hx with rfl | rfl | rfl <;> rfl
  case perturbation =>
    simp [elems, doubles] at hx
    rcases hx with rfl | rfl | rfl <;> rfl
  case edge =>
    obtain ⟨v, -, hx⟩ := List.mem_flatMap.1 hx
    simp at hx
    rcases hx with rfl | rfl <;> rfl
  all_goals simp only [elems, List.mem_cons, List.not_mem_nil, or_false, List.mem_map] at hx
  all_goals first | (obtain ⟨a, _, rfl⟩ := hx; rfl) | (subst hx; rfl)

theorem floatLoop_first (n : Nat) (v : Nat × Nat × Nat) (vs : List (Nat × Nat × Nat)) (off : Nat) (h : (off + 1) / 3 ≠ n) :
    (4 * off, .f32 v.1) ∈ (floatLoop id n off (v :: vs) : List (Write Nat Nat)) := by
  simp [floatLoop, h]

end Mcut.CC
