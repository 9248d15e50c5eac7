import Verif.Lemmas.Maps

/-! # C27: face maps point to the right client faces (a run with a partitioned face is in Lemmas/CheckEval.lean) -/
namespace Mcut.Dispatch
open Mcut.Hmesh Mcut.Preproc Mcut.Partition
variable {D A B : Type}

/-- **C27.** After any dispatch, with any number of partitionings of faces of both meshes and re-readings of the cut mesh in any order: the two meshes given to the last kernel call arise from the client's
meshes by series of partitionings, and the translation of the face indices of every stored component takes each face of the source mesh to
the client's source face that it is a part of, and each face of the cut mesh (numbered after those of the source mesh) to the client's cut face
that it is a part of, numbered after the client's source faces.
How the kernel computes the maps of its output meshes: C82. -/
theorem C27_face_map_partial {c : Client} (hc : c.Sized) {env : LoadEnv} {enc : Enclosure} {its : List (Iter D)} (L : Possible c env its) {s : St} {cs : List (Stored D)} {ty : Option IType}
    (h : preproc c env enc its = some (.ok s cs ty)) (hne : cs ≠ []) :
    ∃ call e1 e2 ms mc Hs Hc, s.calls.getLast? = some call ∧
      loadArrays (0, 0, 0) c.src c.srcPts e1 = .mesh ms ∧ Evolves ms Hs call.src ∧
      loadArrays (0, 0, 0) c.cut (c.cutPts.map (fun p => Pt.add p call.pert)) e2 = .mesh mc ∧ Evolves mc Hc call.cut ∧
      ∀ x ∈ cs, ∀ k : CC.Comp A B, Tagged x k →
        (∀ f, f < call.src.numFaces → CC.userFace k f = origin Hs f ∧ origin Hs f < c.src.numFaces) ∧
        (∀ f, f < call.cut.numFaces → CC.userFace k (call.src.numFaces + f) = c.src.numFaces + origin Hc f ∧ origin Hc f < c.cut.numFaces) := by
  obtain ⟨Bk, hlast, hprev, o, hcs⟩ := run_state hc L h hne
  obtain ⟨e1, ms, Hs, L1, hms, B1⟩ := Bk.src
  obtain ⟨e2, mc, Hc, L2, hmc, B2⟩ := Bk.cut
  refine ⟨_, e1, e2, ms, mc, Hs, Hc, hlast, hms, B1.evolves, hmc, B2.evolves, ?_⟩
  intro x hx k T
  rw [hcs] at hx
  obtain ⟨t1, t2, -, -, -, -, t7, t8⟩ := store_tags hx
  have M1 := built_src hc L1 hms
  have M2 := built_cut hc L2 hmc
  have n1 : ms.nF = c.src.numFaces := by rw [M1.nF, faces_length hc.src]
  have n2 : mc.nF = c.cut.numFaces := by rw [M2.nF, faces_length hc.cut]
  have q1 : s.src.mesh.numFaces = s.src.mesh.nF := numFaces_eq B1.fRem
  have q2 : s.cut.mesh.numFaces = s.cut.mesh.nF := numFaces_eq B2.fRem
  constructor
  · intro f hf
    replace hf : f < s.src.mesh.numFaces := hf
    have hr := B1.range f (q1 ▸ hf)
    refine ⟨?_, n1 ▸ hr⟩
    unfold CC.userFace
    rw [T.internalSrcF, t7, if_pos hf, T.srcBirth, t1]
    rcases B1.birth f (q1 ▸ hf) with h | ⟨h, h'⟩
    · rw [h]
    · rw [h, h']
  · intro f hf
    replace hf : f < s.cut.mesh.numFaces := hf
    have hr := B2.range f (q2 ▸ hf)
    refine ⟨?_, n2 ▸ hr⟩
    show CC.userFace k (s.src.mesh.numFaces + f) = _
    unfold CC.userFace
    rw [T.internalSrcF, t7, if_neg (by omega), T.cutBirth, t2, lookup_offset, T.clientSrcF, t8]
    rcases B2.birth f (q2 ▸ hf) with h | ⟨h, h'⟩
    · rw [h]
      simp only [Option.map_some, hprev]
      omega
    · rw [h]
      simp only [Option.map_none, h']
      omega

/-- **C27** for the two input meshes among the components: with MC_DISPATCH_INCLUDE_FACE_MAP the map that the client reads gives, for each face, the client's face that it is a part of. -/
theorem C27_inputs {c : Client} (hc : c.Sized) {env : LoadEnv} {enc : Enclosure} {its : List (Iter D)} (L : Possible c env its) {s : St} {cs : List (Stored D)} {ty : Option IType}
    (h : preproc c env enc its = some (.ok s cs ty)) (hne : cs ≠ []) (hflag : c.flags.testBit 4 = true) :
    ∃ call e1 e2 ms mc Hs Hc, s.calls.getLast? = some call ∧
      loadArrays (0, 0, 0) c.src c.srcPts e1 = .mesh ms ∧ Evolves ms Hs call.src ∧
      loadArrays (0, 0, 0) c.cut (c.cutPts.map (fun p => Pt.add p call.pert)) e2 = .mesh mc ∧ Evolves mc Hc call.cut ∧
      ∃ a ∈ cs, ∃ b ∈ cs, a.kind = .input true ∧ b.kind = .input false ∧
        (∃ vm fm, a.data = .input call.src vm fm ∧ ∀ k : CC.Comp A B, Tagged a k → fm.map (CC.userFace k) = (List.range call.src.numFaces).map (origin Hs)) ∧
        (∃ vm fm, b.data = .input call.cut vm fm ∧ ∀ k : CC.Comp A B, Tagged b k → fm.map (CC.userFace k) = (List.range call.cut.numFaces).map (fun f => c.src.numFaces + origin Hc f)) := by
  obtain ⟨call, e1, e2, ms, mc, Hs, Hc, hlast, h1, h2, h3, h4, h5⟩ := C27_face_map_partial (A := A) (B := B) hc L h hne
  refine ⟨call, e1, e2, ms, mc, Hs, Hc, hlast, h1, h2, h3, h4, ?_⟩
  obtain ⟨-, hl', -, o, hcs⟩ := run_state hc L h hne
  rw [hlast] at hl'; cases hl'
  obtain ⟨a, b, rest, hs, hp, -⟩ := store_eq c s o
  rw [hcs, hs] at h5 ⊢
  refine ⟨a, by simp, b, by simp, hp.srcKind, hp.cutKind, ?_, ?_⟩
  · obtain ⟨vm, fm, hd, -, hf⟩ := hp.src
    refine ⟨vm, fm, hd, fun k T => ?_⟩
    rw [hf hflag]
    apply List.map_congr_left
    intro f hf'
    exact ((h5 a (by simp) k T).1 f (List.mem_range.1 hf')).1
  · obtain ⟨vm, fm, hd, -, hf⟩ := hp.cut
    refine ⟨vm, fm, hd, fun k T => ?_⟩
    obtain ⟨hl, hf⟩ := hf hflag
    refine List.ext_getElem? fun i => ?_
    by_cases hi : i < s.cut.mesh.numFaces
    · rw [List.getElem?_map, hf i hi, Option.map_some, List.getElem?_map, List.getElem?_range (show i < (callOf s).cut.numFaces from hi), Option.map_some]
      exact congrArg some ((h5 b (by simp) k T).2 i hi).1
    · rw [List.getElem?_eq_none (by simp [hl]; omega), List.getElem?_eq_none (by simp [callOf]; omega)]

end Mcut.Dispatch
