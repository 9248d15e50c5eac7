import Verif.Spec.C24
import Verif.Props.C21

/-! Helper lemmas for `Props/C24.lean`. -/
namespace Mcut.CC
open Mcut.Sched
variable {D F : Type}

theorem faceTris_eq (c : Comp D F) (f : Nat) : faceTris c f = trianglesOf c f := rfl

theorem faceTriMap_eq {c : Comp D F} (ok : Ok c) (f : Nat) (h : f < c.faces.length) :
    faceTriMap c f = List.replicate ((trianglesOf c f).length / 3) (userFace c (c.fmap.getD f 0)) := by
  unfold faceTriMap
  rw [List.map_const', third_length, faceTris_eq]
  have := faceTris_mod3 ok f h
  rw [faceTris_eq] at this
  congr 1; omega

theorem consec_indices : ∀ (bs : List (Nat × Nat)) (a n : Nat), Consec a bs n → bs.flatMap blockIndices = (List.range (n - a)).map (a + ·) := by
  intro bs
  induction bs with
  | nil => intro a n h; simp [Consec] at h; simp [h]
  | cons b bs ih =>
    intro a n ⟨h1, h2, h3, h4⟩
    simp only [List.flatMap_cons]
    rw [ih b.2 n h4]
    subst h1
    have e : n - b.1 = (b.2 - b.1) + (n - b.2) := by omega
    rw [e, List.range_add, List.map_append, List.map_map]
    congr 1
    · simp only [blockIndices]; rw [List.range'_eq_map_range]
    · apply List.map_congr_left; intro x _; simp; omega

theorem consec_blocks {n avail m : Nat} (hn : 0 < n) (ha : 0 < avail) (hm : 0 < m) (hb : n + m ≤ 2 ^ 32) {bs : List (Nat × Nat)}
    (h : parallelForBlocks n avail m = .ok bs) : Consec 0 bs n := by
  obtain ⟨bs', h1, h2⟩ := blocks_ok n avail m hn ha hm hb
  rw [h] at h1; injection h1 with h1; subst h1; exact h2

theorem blocks_avail {n avail m : Nat} (hm : 0 < m) {bs : List (Nat × Nat)} (h : parallelForBlocks n avail m = .ok bs) : 0 < avail := by
  rcases Nat.eq_zero_or_pos avail with rfl | h0
  · unfold parallelForBlocks at h
    split at h
    · simp at h
    · rename_i p hp
      unfold schedulingParams at hp
      rw [if_neg (by omega)] at hp
      simp only at hp
      generalize (min (if (0 : Nat) ≠ 0 then 0 else 2) ((n + m - 1) % 2 ^ 32 / m)) = q at hp
      by_cases h3 : q = 0
      · rw [if_pos h3] at hp; simp at hp
      · rw [if_neg h3, if_pos (Or.inr (Nat.pos_of_ne_zero h3))] at hp; simp at hp
  · exact h0

theorem corresponds_of {c : Comp D F} (ok : Ok c) {avail : Nat} {bs order : List (Nat × Nat)}
    (hb : parallelForBlocks c.faces.length avail 1024 = .ok bs) (hp : order.Perm bs) :
    Corresponds c (order.flatMap (triLocal c)) (order.flatMap (triMapLocal c)) := by
  have hcons := consec_blocks (List.length_pos_iff.2 ok.faces) (blocks_avail (by decide) hb) (by decide) (by have := ok.bound; omega) hb
  refine ⟨order.flatMap blockIndices, ?_, ?_, ?_⟩
  · have h1 := hp.flatMap_right blockIndices
    rw [consec_indices bs 0 _ hcons] at h1
    simpa using h1
  · unfold triLocal; rw [List.flatMap_assoc]; rfl
  · unfold triMapLocal
    rw [List.flatMap_assoc]
    rw [List.flatMap_def, List.flatMap_def]
    congr 1
    apply List.map_congr_left
    intro b hbm
    rw [List.flatMap_def, List.flatMap_def]
    congr 1
    apply List.map_congr_left
    intro f hf
    exact faceTriMap_eq ok f (blocks_bound hb b (hp.mem_iff.1 hbm) f hf)

end Mcut.CC
