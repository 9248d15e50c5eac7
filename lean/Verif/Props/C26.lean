import Verif.Lemmas.Maps

/-! # C26: vertex maps point to the right client vertices (a run with a partitioned face is in Lemmas/CheckEval.lean) -/
namespace Mcut.Dispatch
open Mcut.Hmesh Mcut.Preproc Mcut.Partition
variable {D A B : Type}

/-- **C26.** After any dispatch, with any number of partitionings of faces of both meshes and re-readings of the cut mesh in any order, and unless
the meshes have 2^32 - 1 vertices together: the translation of the vertex indices of every stored component takes each vertex of the source mesh
given to the kernel that the client provided to itself, each vertex of the cut mesh (numbered after those of the source mesh) that the client provided to its
number after the client's source vertices, and all vertices that partitioning added, and the undefined value, to the undefined value. The kernel
got the client's coordinates for the former, up to the perturbation.
How the kernel computes the maps of its output meshes: C82. -/
theorem C26_vertex_map_partial {c : Client} (hc : c.Sized) {env : LoadEnv} {enc : Enclosure} {its : List (Iter D)} (L : Possible c env its) {s : St} {cs : List (Stored D)} {ty : Option IType}
    (h : preproc c env enc its = some (.ok s cs ty)) (hne : cs ≠ []) :
    ∃ call, s.calls.getLast? = some call ∧ c.src.numVertices ≤ call.src.numVertices ∧ c.cut.numVertices ≤ call.cut.numVertices ∧
      (∀ v p, c.srcPts[v]? = some p → call.src.pos v = p) ∧ (∀ v p, c.cutPts[v]? = some p → call.cut.pos v = Pt.add p call.pert) ∧
      (call.src.numVertices + call.cut.numVertices ≤ CC.UNDEF → ∀ x ∈ cs, ∀ k : CC.Comp A B, Tagged x k →
        CC.userVertex k CC.UNDEF = CC.UNDEF ∧
        (∀ v, v < call.src.numVertices → CC.userVertex k v = if v < c.src.numVertices then v else CC.UNDEF) ∧
        (∀ v, v < call.cut.numVertices → CC.userVertex k (call.src.numVertices + v) = if v < c.cut.numVertices then c.src.numVertices + v else CC.UNDEF)) := by
  obtain ⟨Bk, hlast, hprev, o, hcs⟩ := run_state hc L h hne
  have hok := callOf_ok hc Bk
  obtain ⟨e1, ms, Hs, L1, hms, B1⟩ := Bk.src
  obtain ⟨e2, mc, Hc, L2, hmc, B2⟩ := Bk.cut
  have M1 := built_src hc L1 hms
  have M2 := built_cut hc L2 hmc
  have n1 : ms.nV = c.src.numVertices := by rw [M1.nV, hc.srcPts]
  have n2 : mc.nV = c.cut.numVertices := by rw [M2.nV, List.length_map, hc.cutPts]
  have q1 : s.src.mesh.numVertices = s.src.mesh.nV := numVertices_eq B1.vRem
  have q2 : s.cut.mesh.numVertices = s.cut.mesh.nV := numVertices_eq B2.vRem
  have g1 := B1.leV
  have g2 := B2.leV
  refine ⟨_, hlast, by show _ ≤ s.src.mesh.numVertices; omega, by show _ ≤ s.cut.mesh.numVertices; omega, hok.src, hok.cut, ?_⟩
  intro hmax x hx k T
  replace hmax : s.src.mesh.numVertices + s.cut.mesh.numVertices ≤ CC.UNDEF := hmax
  rw [hcs] at hx
  obtain ⟨-, -, t3, t4, t5, t6, -, -⟩ := store_tags hx
  refine ⟨by unfold CC.userVertex; rw [if_pos rfl], ?_, ?_⟩
  · intro v hv
    replace hv : v < s.src.mesh.numVertices := hv
    unfold CC.userVertex
    rw [T.internalSrcV, t5, T.srcNewV, t3]
    by_cases hu : v = CC.UNDEF
    · rw [if_pos hu, if_neg]
      · omega
    rw [if_neg hu, if_pos hv]
    by_cases hn : v < c.src.numVertices
    · rw [if_pos hn, if_neg]
      intro hm
      have := B1.old v hm
      omega
    · rw [if_neg hn, if_pos]
      exact B1.new v (by omega) (by omega)
  · intro v hv
    replace hv : v < s.cut.mesh.numVertices := hv
    show CC.userVertex k (s.src.mesh.numVertices + v) = _
    unfold CC.userVertex
    rw [T.internalSrcV, t5, T.cutNewV, t4, T.clientSrcV, t6]
    rw [if_neg (by omega), if_neg (by omega)]
    have hm : s.src.mesh.numVertices + v ∈ s.cut.newV.map (fun v => v + s.src.mesh.numVertices) ↔ v ∈ s.cut.newV := by
      rw [List.mem_map]
      constructor
      · rintro ⟨w, hw, e⟩
        have : w = v := by omega
        exact this ▸ hw
      · exact fun h => ⟨v, h, Nat.add_comm _ _⟩
    simp only [hm]
    by_cases hn : v < c.cut.numVertices
    · rw [if_pos hn, if_neg]
      · omega
      intro hm
      have := B2.old v hm
      omega
    · rw [if_neg hn, if_pos]
      exact B2.new v (by omega) (by omega)

/-- **C26**, consequences for any index of a vertex of the two meshes: the entry is undefined or below the number of client vertices, source vertices stay below the source count and cut
vertices at or above it, and no two vertices get the same defined entry. -/
theorem C26_injective {c : Client} (hc : c.Sized) {env : LoadEnv} {enc : Enclosure} {its : List (Iter D)} (L : Possible c env its) {s : St} {cs : List (Stored D)} {ty : Option IType}
    (h : preproc c env enc its = some (.ok s cs ty)) (hne : cs ≠ []) (call : Call) (hcall : s.calls.getLast? = some call)
    (hmax : call.src.numVertices + call.cut.numVertices ≤ CC.UNDEF) (x : Stored D) (hx : x ∈ cs) (k : CC.Comp A B) (T : Tagged x k) :
    (∀ v, v < call.src.numVertices + call.cut.numVertices → CC.userVertex k v = CC.UNDEF ∨
      CC.userVertex k v < c.src.numVertices + c.cut.numVertices ∧ (v < call.src.numVertices ↔ CC.userVertex k v < c.src.numVertices)) ∧
    (∀ v w, v < call.src.numVertices + call.cut.numVertices → w < call.src.numVertices + call.cut.numVertices →
      CC.userVertex k v = CC.userVertex k w → CC.userVertex k v ≠ CC.UNDEF → v = w) := by
  obtain ⟨call', hl, h1, h2, -, -, h3⟩ := C26_vertex_map_partial (A := A) (B := B) hc L h hne
  rw [hcall] at hl; cases hl
  obtain ⟨-, h4, h5⟩ := h3 hmax x hx k T
  have key : ∀ v, v < call.src.numVertices + call.cut.numVertices → CC.userVertex k v = CC.UNDEF ∨
      v < call.src.numVertices ∧ v < c.src.numVertices ∧ CC.userVertex k v = v ∨
      call.src.numVertices ≤ v ∧ v - call.src.numVertices < c.cut.numVertices ∧ CC.userVertex k v = c.src.numVertices + (v - call.src.numVertices) := by
    intro v hv
    by_cases hs : v < call.src.numVertices
    · have := h4 v hs
      split at this
      · next hn => exact .inr (.inl ⟨hs, hn, this⟩)
      · exact .inl this
    · have := h5 (v - call.src.numVertices) (by omega)
      rw [show call.src.numVertices + (v - call.src.numVertices) = v by omega] at this
      split at this
      · next hn => exact .inr (.inr ⟨by omega, hn, this⟩)
      · exact .inl this
  constructor
  · intro v hv
    rcases key v hv with h | ⟨h, h', h''⟩ | ⟨h, h', h''⟩
    · exact .inl h
    · right; rw [h'']; omega
    · right; rw [h'']; omega
  · intro v w hv hw e hu
    rcases key v hv with h | ⟨h, h', h''⟩ | ⟨h, h', h''⟩
    · exact absurd h hu
    · rcases key w hw with g | ⟨g, g', g''⟩ | ⟨g, g', g''⟩
      · rw [e] at hu; exact absurd g hu
      · omega
      · omega
    · rcases key w hw with g | ⟨g, g', g''⟩ | ⟨g, g', g''⟩
      · rw [e] at hu; exact absurd g hu
      · omega
      · omega

/-- **C26** for the two input meshes among the components: with MC_DISPATCH_INCLUDE_VERTEX_MAP the map that the client reads. -/
theorem C26_inputs {c : Client} (hc : c.Sized) {env : LoadEnv} {enc : Enclosure} {its : List (Iter D)} (L : Possible c env its) {s : St} {cs : List (Stored D)} {ty : Option IType}
    (h : preproc c env enc its = some (.ok s cs ty)) (hne : cs ≠ []) (hflag : c.flags.testBit 3 = true) :
    ∃ call, s.calls.getLast? = some call ∧ (call.src.numVertices + call.cut.numVertices ≤ CC.UNDEF →
      ∃ a ∈ cs, ∃ b ∈ cs, a.kind = .input true ∧ b.kind = .input false ∧
        (∃ vm fm, a.data = .input call.src vm fm ∧ ∀ k : CC.Comp A B, Tagged a k →
          vm.map (CC.userVertex k) = (List.range call.src.numVertices).map (fun v => if v < c.src.numVertices then v else CC.UNDEF)) ∧
        (∃ vm fm, b.data = .input call.cut vm fm ∧ ∀ k : CC.Comp A B, Tagged b k →
          vm.map (CC.userVertex k) = (List.range call.cut.numVertices).map (fun v => if v < c.cut.numVertices then c.src.numVertices + v else CC.UNDEF))) := by
  obtain ⟨call, hlast, -, -, -, -, h5⟩ := C26_vertex_map_partial (A := A) (B := B) hc L h hne
  refine ⟨call, hlast, fun hmax => ?_⟩
  obtain ⟨-, hl', -, o, hcs⟩ := run_state hc L h hne
  rw [hlast] at hl'; cases hl'
  obtain ⟨a, b, rest, hs, hp, -⟩ := store_eq c s o
  replace h5 := h5 hmax
  rw [hcs, hs] at h5 ⊢
  refine ⟨a, by simp, b, by simp, hp.srcKind, hp.cutKind, ?_, ?_⟩
  · obtain ⟨vm, fm, hd, hf, -⟩ := hp.src
    refine ⟨vm, fm, hd, fun k T => ?_⟩
    rw [hf hflag]
    apply List.map_congr_left
    intro f hf'
    exact (h5 a (by simp) k T).2.1 f (List.mem_range.1 hf')
  · obtain ⟨vm, fm, hd, hf, -⟩ := hp.cut
    refine ⟨vm, fm, hd, fun k T => ?_⟩
    obtain ⟨hl, hf⟩ := hf hflag
    refine List.ext_getElem? fun i => ?_
    by_cases hi : i < s.cut.mesh.numVertices
    · rw [List.getElem?_map, hf i hi, Option.map_some, List.getElem?_map, List.getElem?_range (show i < (callOf s).cut.numVertices from hi), Option.map_some]
      exact congrArg some ((h5 b (by simp) k T).2.2 i hi)
    · rw [List.getElem?_eq_none (by simp [hl]; omega), List.getElem?_eq_none (by simp [callOf]; omega)]

end Mcut.Dispatch
