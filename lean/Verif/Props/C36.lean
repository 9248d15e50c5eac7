import Verif.Lemmas.C36

/-!
# C36 — the broad phase reports exactly the overlapping face pairs
-/
namespace Mcut.Bvh
open Mcut.Box
variable {α : Type*} [LinearOrder α]

/-- **C36**: for any two meshes of between 1 and 2^23 faces, any face order (Morton order), any processing order of the worker threads and any
prior memory contents, the traversal terminates and reports exactly the pairs of faces with overlapping boxes, each as often as it occurs in the
product of the two face lists (once, if no face is listed twice).
Missing: face counts above 2^23 (C36_lost_face_fails). -/
theorem C36_broad_phase_partial (bot top : α) (facesS facesC : List Nat) (bS bC : Nat → BBox α) (orderS orderC : Nat → List Nat)
    (memS memC : Nat → BBox α)
    (hS1 : 1 ≤ facesS.length) (hS2 : facesS.length ≤ 2 ^ 23) (hC1 : 1 ≤ facesC.length) (hC2 : facesC.length ≤ 2 ^ 23)
    (hoS : CompleteOrder facesS.length orderS) (hoC : CompleteOrder facesC.length orderC) :
    ∃ fuel out,
      traverse ⟨build bot top facesS bS orderS memS, facesS⟩ ⟨build bot top facesC bC orderC memC, facesC⟩ fuel [(0, 0)] [] = some out ∧
      out.Perm ((facesS ×ˢ facesC).filter (fun p => intersect (bS p.1) (bC p.2))) := by
  obtain ⟨LS, hLS⟩ := leafDepth_exists _ hS1 (by omega)
  obtain ⟨LC, hLC⟩ := leafDepth_exists _ hC1 (by omega)
  have oS : TreeOK ⟨build bot top facesS bS orderS memS, facesS⟩ LS bS :=
    ⟨hS1, hS2, hLS, build_ok bot top LS facesS bS orderS memS hS1 hS2 hLS hoS⟩
  have oC : TreeOK ⟨build bot top facesC bC orderC memC, facesC⟩ LC bC :=
    ⟨hC1, hC2, hLC, build_ok bot top LC facesC bC orderC memC hC1 hC2 hLC hoC⟩
  have nS : NodeAt LS facesS.length 0 0 0 := ⟨by omega, by rw [levelCount_root _ _ hS1 hLS]; omega, by simp⟩
  have nC : NodeAt LC facesC.length 0 0 0 := ⟨by omega, by rw [levelCount_root _ _ hC1 hLC]; omega, by simp⟩
  obtain ⟨res, h1, h2⟩ := traverse_spec _ _ bS bC LS LC oS oC _ _ (le_refl _) [(0, 0)] []
    (QOK.cons (0, 0) [] 0 0 0 ⟨⟨0, nS⟩, ⟨0, nC⟩⟩ (by omega) (by omega) QOK.nil)
  refine ⟨_, res, h1, h2.trans ?_⟩
  simp only [List.nil_append, List.flatMap_cons, List.flatMap_nil, List.append_nil]
  unfold expand
  rw [(nodeAt_level oS nS).1, (nodeAt_level oS nS).2]
  simp only
  rw [seg_root LS facesS hLS.1, seg_root LC facesC hLC.1]

/-- **C36**, in terms of single pairs: each overlapping pair of faces is reported exactly once and nothing else is reported.
Missing: face counts above 2^23 (C36_lost_face_fails). -/
theorem C36_exactly_once_partial (bot top : α) (facesS facesC : List Nat) (bS bC : Nat → BBox α) (orderS orderC : Nat → List Nat)
    (memS memC : Nat → BBox α) (hndS : facesS.Nodup) (hndC : facesC.Nodup)
    (hS1 : 1 ≤ facesS.length) (hS2 : facesS.length ≤ 2 ^ 23) (hC1 : 1 ≤ facesC.length) (hC2 : facesC.length ≤ 2 ^ 23)
    (hoS : CompleteOrder facesS.length orderS) (hoC : CompleteOrder facesC.length orderC) (fuel : Nat) (out : List (Nat × Nat))
    (hrun : traverse ⟨build bot top facesS bS orderS memS, facesS⟩ ⟨build bot top facesC bC orderC memC, facesC⟩ fuel [(0, 0)] [] = some out) :
    out.Nodup ∧ ∀ f g, (f, g) ∈ out ↔ f ∈ facesS ∧ g ∈ facesC ∧ intersect (bS f) (bC g) = true := by
  obtain ⟨fuel', out', h1, h2⟩ := C36_broad_phase_partial bot top facesS facesC bS bC orderS orderC memS memC hS1 hS2 hC1 hC2 hoS hoC
  have : out' = out := traverse_det _ _ _ _ _ _ _ _ h1 hrun
  subst this
  refine ⟨h2.nodup_iff.2 ((List.Nodup.product hndS hndC).filter _), fun f g => ?_⟩
  rw [h2.mem_iff, List.mem_filter, List.mem_product]
  tauto

/-- **C36**: the map handed to the kernel is symmetric: cut face `g` (with the offset) is listed under source face `f` exactly as often as `f` under
`g`, namely as often as the pair was reported. -/
theorem C36_map_symmetric (nS : Nat) (out : List (Nat × Nat)) (f g : Nat) (hf : f < nS) (hout : ∀ p ∈ out, p.1 < nS) :
    (mapEntry nS out f).count (g + nS) = out.count (f, g) ∧ (mapEntry nS out (g + nS)).count f = out.count (f, g) := by
  induction out with
  | nil => simp [mapEntry]
  | cons p out ih =>
    obtain ⟨ih1, ih2⟩ := ih (fun q hq => hout q (by simp [hq]))
    have hp := hout p (by simp)
    obtain ⟨a, b⟩ := p
    simp only at hp
    have e : ∀ k, mapEntry nS ((a, b) :: out) k =
        ((if a = k then [b + nS] else []) ++ (if b + nS = k then [a] else [])) ++ mapEntry nS out k := by
      intro k; simp [mapEntry]
    rw [e, e]
    simp only [List.count_append, ih1, ih2, List.count_cons]
    have n1 : ¬ (b + nS = f) := by omega
    have n2 : ¬ (a = g + nS) := by omega
    simp only [n1, n2, if_false]
    constructor
    · by_cases h1 : a = f <;> by_cases h2 : b = g <;> simp [h1, h2] <;> omega
    · by_cases h1 : a = f <;> by_cases h2 : b = g <;> simp [h1, h2] <;> omega

/-- **C36** fails beyond 2^23 faces: in a tree with 8388611 faces the traversal never descends to node 12582912, although it is real (it is the only
way to the last face). -/
theorem C36_lost_face_fails (T : Tree α) (h : T.faces.length = 8388611) :
    Real 24 8388611 12582912 ∧ 12582912 = 6291455 * 2 + 2 ∧ T.children 6291455 = [12582911] := by
  refine ⟨Real.parentL _ (Real.leaf (L := 24) (t := 8388611) 8388610 (by omega)), rfl, ?_⟩
  have : T.rightChildReal 6291455 = false := by
    unfold Tree.rightChildReal
    rw [h]
    decide +kernel
  simp [Tree.children, this]

/-- Non-vacuity: the sequential processing order is complete. -/
example (t : Nat) : CompleteOrder t (fun l => List.range (nodesOnLevel t l)) := fun _ _ => List.Perm.refl _

/-- Non-vacuity: a run on three source faces and two cut faces; source face 2 overlaps cut face 0, source face 0 overlaps cut face 1. -/
example :
    let bS : Nat → BBox Int := fun f => ⟨⟨10 * f, 0, 0⟩, ⟨10 * f + 5, 5, 5⟩⟩
    let bC : Nat → BBox Int := fun f => if f = 0 then ⟨⟨25, 5, 0⟩, ⟨30, 6, 1⟩⟩ else ⟨⟨-3, -3, -3⟩, ⟨0, 0, 0⟩⟩
    traverse ⟨build (-100) 100 [1, 0, 2] bS (fun l => (List.range (nodesOnLevel 3 l)).reverse) (fun _ => BBox.default (-100) 100), [1, 0, 2]⟩
      ⟨build (-100) 100 [0, 1] bC (fun l => List.range (nodesOnLevel 2 l)) (fun _ => BBox.default (-100) 100), [0, 1]⟩ 100 [(0, 0)] []
      = some [(0, 1), (2, 0)] := by decide +kernel

end Mcut.Bvh
