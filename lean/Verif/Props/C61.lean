import Verif.Lemmas.C61Seq
import Verif.Props.C36
import Verif.Props.C60

/-!
# C61 — every edge is tested against every face of the other mesh whose box it meets
-/
namespace Mcut.Pairs
open Mcut.Hmesh Mcut.Box Mcut.Sched Mcut.Extract

section
variable {P : Type} {d : P} {ps : Mesh P} {pairs : FaceMap}

/-- **C61 (thread pool).** For every non-empty face map and every number of threads the parallel stage builds exactly the edge map. -/
theorem C61_parallel (F : IsFaceMap ps pairs) (hne : pairs ≠ []) (avail : Nat) (ha : 0 < avail) (hsz : pairs.length + 1024 ≤ 2 ^ 32) :
    ∃ M, parallelPairs ps pairs avail = some M ∧ EdgeMapOf ps pairs M := by
  obtain ⟨bs, hb, hpos, -, -, hflat⟩ := C17_blocks_partition_partial pairs.length avail 1024 (List.length_pos_iff.2 hne) ha (by omega) hsz
  unfold parallelPairs
  rw [hb]
  simp only
  have hnil : bs ≠ [] := List.length_pos_iff.1 hpos
  have hsl := slices_flatten pairs bs hflat
  have hsub : ∀ b ∈ bs, ∀ kv ∈ (pairs.drop b.1).take (b.2 - b.1), kv.2.Nodup :=
    fun b _ kv hkv => F.nodup kv (List.mem_of_mem_drop (List.mem_of_mem_take hkv))
  rw [List.getLast?_map, List.getLast?_eq_getLast_of_ne_nil hnil]
  refine ⟨_, rfl, Cand.edgeMapOf ?_⟩
  rw [← List.map_dropLast]
  have key : ∀ (l : List (Nat × Nat)), (∀ b ∈ l, b ∈ bs) → ∀ (A : EdgeMap) (T : Nat → Prop) (D : Nat → Nat → Prop), Cand T D A →
      Cand (fun e => T e ∨ Tof ps (l.flatMap (fun b => (pairs.drop b.1).take (b.2 - b.1))) e)
        (fun e g => D e g ∨ Dof ps (l.flatMap (fun b => (pairs.drop b.1).take (b.2 - b.1))) e g)
        ((l.map (fun b => block ps ((pairs.drop b.1).take (b.2 - b.1)))).foldl mergeMaps A) := by
    intro l
    induction l with
    | nil => intro _ A T D C; exact C.congr (fun e => by simp [Tof]) (fun e g => by simp [Dof])
    | cons b l ih =>
      intro hl A T D C
      have := ih (fun x hx => hl x (by simp [hx])) _ _ _ (merge_spec C (block_spec ps _ (hsub b (hl b (by simp)))))
      refine this.congr (fun e => ?_) (fun e g => ?_)
      · unfold Tof; simp only [List.flatMap_cons, List.mem_append, or_and_right, exists_or]; exact or_assoc
      · unfold Dof; simp only [List.flatMap_cons, List.mem_append, or_and_right, exists_or]; exact or_assoc
  have := key bs.dropLast (fun b hb => List.mem_of_mem_dropLast hb) _ _ _ (block_spec ps _ (hsub (bs.getLast hnil) (List.getLast_mem hnil)))
  have hm : ∀ kv : Nat × List Nat, (kv ∈ (pairs.drop (bs.getLast hnil).1).take ((bs.getLast hnil).2 - (bs.getLast hnil).1) ∨
      kv ∈ bs.dropLast.flatMap (fun b => (pairs.drop b.1).take (b.2 - b.1))) ↔ kv ∈ pairs := by
    intro kv
    conv_rhs => rw [← hsl, ← List.dropLast_append_getLast hnil]
    rw [List.flatMap_append, List.mem_append, List.flatMap_singleton]; tauto
  refine this.congr (fun e => ?_) (fun e g => ?_)
  · unfold Tof; simp only [← hm, or_and_right, exists_or]
  · unfold Dof; simp only [← hm, or_and_right, exists_or]

/-- **C61 (breadth-first search).** For every non-empty face map of a mesh whose faces are simple, the sequential stage terminates, never reads or erases past the end,
and builds exactly the edge map. -/
theorem C61_sequential (hr : Reachable d ps) (F : IsFaceMap ps pairs) (S : SimpleFaces ps) (hne : pairs ≠ []) :
    ∃ M, sequentialPairs ps pairs = some M ∧ EdgeMapOf ps pairs M := by
  unfold sequentialPairs
  cases hp : pairs with
  | nil => exact absurd hp hne
  | cons kv rest =>
    simp only
    rw [← hp]
    have hkey : ∀ u ∈ pairs.map Prod.fst, ∃ kv ∈ pairs, kv.1 = u := fun u hu => List.mem_map.1 hu
    have hd : doneOf pairs (pairs.map Prod.fst) = [] := by
      unfold doneOf; rw [List.filter_eq_nil_iff]; intro x hx
      simp only [decide_eq_true_eq, not_not]; exact List.mem_map.2 ⟨x, hx, rfl⟩
    refine seqLoop_spec hr F S _ _ (pairs.map Prod.fst) ?_ hkey ?_ ?_ ?_
    · rw [List.pairwise_map]; exact F.sorted
    · refine ⟨rfl, ?_, fun e => ?_, by simp, by simp, by simp⟩
      · rw [hd]; exact Cand.none.congr (fun e => by simp [Tof]) (fun e g => by simp [Dof])
      · rw [hd]; simp [Tof]
    · intro f hf
      simp only [List.head?_cons, Option.some.injEq] at hf
      subst hf
      exact ⟨List.mem_map.2 ⟨kv, by rw [hp]; simp, rfl⟩, by simp⟩
    · simp

/-- **C61**: both variants give the same map, for every number of threads. -/
theorem C61_same (hr : Reachable d ps) (F : IsFaceMap ps pairs) (S : SimpleFaces ps) (hne : pairs ≠ []) (avail : Nat) (ha : 0 < avail)
    (hsz : pairs.length + 1024 ≤ 2 ^ 32) : parallelPairs ps pairs avail = sequentialPairs ps pairs := by
  obtain ⟨M, h1, h2⟩ := C61_parallel F hne avail ha hsz
  obtain ⟨M', h3, h4⟩ := C61_sequential hr F S hne
  rw [h1, h3, edgeMapOf_unique h2 h4]

/-- **C61** fails for an empty face map (no face pairs): with the thread pool a division by zero, without it `end()` is dereferenced. The caller does not enter the kernel
then (see C40). -/
theorem C61_empty_fails (avail : Nat) : parallelPairs ps [] avail = none ∧ sequentialPairs ps [] = none := by
  have := C17_empty_range_fails avail 1024 (by omega) (by omega)
  unfold parallelPairs
  simp only [List.length_nil, this]
  exact ⟨trivial, rfl⟩

theorem no_two_cycle {n i : Nat} (h3 : 3 ≤ n) (hi : i < n) (this : ((i + 1) % n + 1) % n = i) : False := by
  rcases Nat.lt_or_ge (i + 1) n with h' | h'
  · rw [Nat.mod_eq_of_lt h'] at this
    rcases Nat.lt_or_ge (i + 2) n with h'' | h''
    · rw [Nat.mod_eq_of_lt h''] at this; omega
    · have e : i + 1 + 1 = n := by omega
      rw [e, Nat.mod_self] at this; omega
  · have e : i + 1 = n := by omega
    rw [e, Nat.mod_self, Nat.mod_eq_of_lt (by omega)] at this; omega

/-- Faces without repeated vertices are simple: they never pass an edge twice. -/
theorem C61_simple (hr : Reachable d ps) (h : ∀ f, LiveF ps f → (ps.verticesAroundFace f).Nodup) : SimpleFaces ps := by
  intro f hf x hx ho
  have C := C29_consistent hr
  obtain ⟨h3, hnd, hall⟩ := C.face_list f hf
  have hv := h f hf
  have hinj : ∀ a ∈ ps.fh f, ∀ b ∈ ps.fh f, ps.target a = ps.target b → a = b := by
    intro a ha b hb hab
    exact List.inj_on_of_nodup_map hv ha hb hab
  have pred : ∀ y, y ∈ ps.fh f → opposite y ∈ ps.fh f → ps.next (opposite y) = some y := by
    intro y hy hoy
    obtain ⟨hl, hface⟩ := hall y hy
    obtain ⟨-, -, -, p, -, hn, hpl, hpf, hps⟩ := C.chain y f hl hface
    have hs := (C.opp y hl).2.2.2.2.2.1
    rw [hs] at hps
    have : opposite y = p := hinj _ hoy _ (C.chain p f hpl hpf).2.1 (Option.some.inj hps)
    rw [this]; exact hn
  have hoo := (C.opp x (hall x hx).1).2.1
  have n1 := pred x hx ho
  have n2 := pred (opposite x) ho (by rw [hoo]; exact hx)
  rw [hoo] at n2
  obtain ⟨i, hi, hix⟩ := List.getElem_of_mem hx
  obtain ⟨a, b, ha, hb, hab, -, -⟩ := C29_cycle hr f hf i hi
  have ea : a = x := by rw [List.getElem?_eq_getElem hi, hix] at ha; exact (Option.some.inj ha).symm
  subst ea
  have eb : b = opposite a := by rw [n2] at hab; exact (Option.some.inj hab).symm
  subst eb
  have hi1 : (i + 1) % (ps.fh f).length < (ps.fh f).length := Nat.mod_lt _ (by omega)
  obtain ⟨a', b', ha', hb', hab', -, -⟩ := C29_cycle hr f hf _ hi1
  have ea' : a' = opposite a := by rw [hb] at ha'; exact (Option.some.inj ha').symm
  subst ea'
  have eb' : b' = a := by rw [n1] at hab'; exact (Option.some.inj hab').symm
  subst eb'
  have hi2 : ((i + 1) % (ps.fh f).length + 1) % (ps.fh f).length < (ps.fh f).length := Nat.mod_lt _ (by omega)
  rw [List.getElem?_eq_getElem hi2] at hb'
  have := (List.Nodup.getElem_inj_iff hnd (hi := hi2) (hj := hi)).1 ((Option.some.inj hb').trans hix.symm)
  exact no_two_cycle h3 hi this

end

section
variable {α : Type} [LinearOrder α]

theorem mem_mapEntry {nS : Nat} {out : List (Nat × Nat)} {f g : Nat} :
    g ∈ Bvh.mapEntry nS out f ↔ (∃ c, (f, c) ∈ out ∧ g = c + nS) ∨ (∃ c, (g, c) ∈ out ∧ f = c + nS) := by
  unfold Bvh.mapEntry
  simp only [List.mem_flatMap, List.mem_append]
  constructor
  · rintro ⟨⟨a, c⟩, hp, h | h⟩
    · split_ifs at h with h' <;> simp only [List.mem_singleton, List.not_mem_nil] at h
      exact .inl ⟨c, by rw [← h']; exact hp, h⟩
    · split_ifs at h with h' <;> simp only [List.mem_singleton, List.not_mem_nil] at h
      exact .inr ⟨c, by rw [h]; exact hp, h'.symm⟩
  · rintro (⟨c, h, rfl⟩ | ⟨c, h, rfl⟩)
    · exact ⟨(f, c), h, .inl (by simp)⟩
    · exact ⟨(g, c), h, .inr (by simp)⟩

theorem mapEntry_nodup {nS : Nat} {out : List (Nat × Nat)} (hn : out.Nodup) (hout : ∀ p ∈ out, p.1 < nS) (f : Nat) : (Bvh.mapEntry nS out f).Nodup := by
  rw [List.nodup_iff_count_le_one]
  intro g
  by_cases hf : f < nS
  · by_cases hg : nS ≤ g
    · have := (Bvh.C36_map_symmetric nS out f (g - nS) hf hout).1
      rw [show g - nS + nS = g by omega] at this
      rw [this]; exact List.nodup_iff_count_le_one.1 hn _
    · have : g ∉ Bvh.mapEntry nS out f := by
        rw [mem_mapEntry]; rintro (⟨c, h, e⟩ | ⟨c, h, e⟩) <;> omega
      rw [List.count_eq_zero.2 this]; omega
  · by_cases hg : g < nS
    · have := (Bvh.C36_map_symmetric nS out g (f - nS) hg hout).2
      rw [show f - nS + nS = f by omega] at this
      rw [this]; exact List.nodup_iff_count_le_one.1 hn _
    · have : g ∉ Bvh.mapEntry nS out f := by
        rw [mem_mapEntry]; rintro (⟨c, h, e⟩ | ⟨c, h, e⟩)
        · have := hout _ h; simp only at this; omega
        · have := hout _ h; simp only at this; omega
      rw [List.count_eq_zero.2 this]; omega

theorem mem_faceMap {nS nC : Nat} {out : List (Nat × Nat)} (kv : Nat × List Nat) :
    kv ∈ faceMap nS nC out ↔ kv.1 < nS + nC ∧ kv.2 = Bvh.mapEntry nS out kv.1 ∧ kv.2 ≠ [] := by
  unfold faceMap
  simp only [List.mem_map, List.mem_filter, List.mem_range, Bool.not_eq_true', List.isEmpty_eq_false_iff]
  constructor
  · rintro ⟨f, ⟨h1, h2⟩, rfl⟩; exact ⟨h1, rfl, h2⟩
  · rintro ⟨h1, h2, h3⟩; exact ⟨kv.1, ⟨h1, by rw [← h2]; exact h3⟩, by rw [← h2]⟩

/-- The end points of an edge are vertices of every face at the edge. -/
theorem edge_in_face {P : Type} {d : P} {ps : Mesh P} (hr : Reachable d ps) {e f : Nat} (hf : LiveF ps f) (h : OnFace ps e f) :
    ps.edgeVertex e 0 ∈ ps.verticesAroundFace f ∧ ps.edgeVertex e 1 ∈ ps.verticesAroundFace f := by
  obtain ⟨x, hx, rfl⟩ := h
  have C := C29_consistent hr
  obtain ⟨hl, hface⟩ := (C.face_list f hf).2.2 x hx
  have a : ps.target x ∈ ps.verticesAroundFace f := List.mem_map.2 ⟨x, hx, rfl⟩
  have b : ps.target (opposite x) ∈ ps.verticesAroundFace f := by
    obtain ⟨-, -, -, p, -, hn, hpl, hpf, hps⟩ := C.chain x f hl hface
    rw [(C.opp x hl).2.2.2.2.2.1] at hps
    rw [Option.some.inj hps]
    exact List.mem_map.2 ⟨p, (C.chain p f hpl hpf).2.1, rfl⟩
  unfold Mesh.edgeVertex edgeOf
  unfold opposite at b
  rcases Nat.mod_two_eq_zero_or_one x with h | h
  · rw [if_pos h] at b
    rw [show x / 2 * 2 + 0 = x by omega, show x / 2 * 2 + 1 = x + 1 by omega]; exact ⟨a, b⟩
  · rw [if_neg (by omega)] at b
    rw [show x / 2 * 2 + 0 = x - 1 by omega, show x / 2 * 2 + 1 = x by omega]; exact ⟨b, a⟩

theorem edgeBox_sub (bot top : α) {ps : Mesh (V3 α)} {l : List Nat} {e : Nat} (h0 : ps.edgeVertex e 0 ∈ l) (h1 : ps.edgeVertex e 1 ∈ l) :
    Sub (edgeBox bot top ps e) (boxOfPoints bot top (l.map ps.pos)) := by
  have h := (foldl_point_sub (l.map ps.pos) (BBox.default bot top) _).1 (sub_refl _)
  unfold edgeBox
  rw [boxOfPoints, foldl_point_sub]
  refine ⟨h.1, fun p hp => h.2 p ?_⟩
  simp only [List.mem_cons, List.not_mem_nil, or_false] at hp
  rcases hp with rfl | rfl
  · exact List.mem_map_of_mem h0
  · exact List.mem_map_of_mem h1

/-- **C61 (completeness).** Given the pairs that the broad phase reports for the boxes `bS`, `bC` of the faces (C36: every overlapping pair once) — boxes that contain the
vertices of the faces (they may be larger) — the list of an edge contains, in increasing order, exactly the faces of the other mesh whose box meets the box of the edge,
for every number of threads; only the edges of faces with a reported pair have a list. -/
theorem C61_complete {d : V3 α} {sm cs ps : Mesh (V3 α)} (M : MergeOf d sm cs ps) (S : SimpleFaces ps) (bot top : α) (bS bC : Nat → BBox α)
    (hS : ∀ f, f < sm.numFaces → Sub (boxOfPoints bot top ((ps.verticesAroundFace f).map ps.pos)) (bS f))
    (hC : ∀ f, f < cs.numFaces → Sub (boxOfPoints bot top ((ps.verticesAroundFace (sm.numFaces + f)).map ps.pos)) (bC f))
    (out : List (Nat × Nat)) (hnd : out.Nodup)
    (hout : ∀ f g, (f, g) ∈ out ↔ f < sm.numFaces ∧ g < cs.numFaces ∧ intersect (bS f) (bC g) = true) (hne : out ≠ [])
    (threads : Option Nat) (hth : ∀ t, threads = some t → 0 < t ∧ sm.numFaces + cs.numFaces + 1024 ≤ 2 ^ 32) :
    ∃ E, candidates bot top bS bC sm.numFaces ps (faceMap sm.numFaces cs.numFaces out) threads = some E ∧
      (∀ e l, E e = some l → l.Pairwise (· < ·)) ∧
      ∀ e g, g ∈ (E e).getD [] ↔ (∃ f, f < ps.numFaces ∧ OnFace ps e f ∧ g < ps.numFaces ∧ OtherSide sm.numFaces f g) ∧
        intersect (edgeBox bot top ps e) (if g < sm.numFaces then bS g else bC (g - sm.numFaces)) = true := by
  have hlive : ∀ f, f < sm.numFaces + cs.numFaces → LiveF ps f := by
    intro f hf
    refine ⟨?_, by rw [M.intact.noRemoved.2]; simp⟩
    have := M.numF; rw [M.intact.numF] at this; omega
  have F : IsFaceMap ps (faceMap sm.numFaces cs.numFaces out) := by
    refine ⟨?_, fun kv hkv => hlive _ ((mem_faceMap kv).1 hkv).1, fun kv hkv => ?_⟩
    · unfold faceMap; rw [List.pairwise_map]; exact List.Pairwise.filter _ List.pairwise_lt_range
    · rw [((mem_faceMap kv).1 hkv).2.1]; exact mapEntry_nodup hnd (fun p hp => ((hout p.1 p.2).1 hp).1) _
  have hfne : faceMap sm.numFaces cs.numFaces out ≠ [] := by
    obtain ⟨⟨a, c⟩, hp⟩ := List.exists_mem_of_ne_nil out hne
    have ha := ((hout a c).1 hp).1
    have : c + sm.numFaces ∈ Bvh.mapEntry sm.numFaces out a := mem_mapEntry.2 (.inl ⟨c, hp, rfl⟩)
    intro h0
    have hm := (mem_faceMap (nS := sm.numFaces) (nC := cs.numFaces) (out := out) (a, Bvh.mapEntry sm.numFaces out a)).2
      ⟨by simp only; omega, rfl, List.ne_nil_of_mem this⟩
    rw [h0] at hm; simp at hm
  have hlen : (faceMap sm.numFaces cs.numFaces out).length ≤ sm.numFaces + cs.numFaces := by
    unfold faceMap; rw [List.length_map]
    have := List.length_filter_le (fun f => !(Bvh.mapEntry sm.numFaces out f).isEmpty) (List.range (sm.numFaces + cs.numFaces))
    simpa using this
  obtain ⟨E, hE, hE'⟩ : ∃ E, edgeMap ps (faceMap sm.numFaces cs.numFaces out) threads = some E ∧ EdgeMapOf ps (faceMap sm.numFaces cs.numFaces out) E := by
    cases threads with
    | none => exact C61_sequential M.intact.reach F S hfne
    | some t => exact C61_parallel F hfne t (hth t rfl).1 (by have := (hth t rfl).2; omega)
  unfold candidates
  refine ⟨cull bot top bS bC sm.numFaces ps E, by rw [hE]; rfl, fun e l h => ?_, fun e g => ?_⟩
  · unfold cull at h
    obtain ⟨l', h', rfl⟩ := Option.map_eq_some_iff.1 h
    exact (hE'.sorted e l' h').filter _
  · have hmem : g ∈ (cull bot top bS bC sm.numFaces ps E e).getD [] ↔
        (∃ kv ∈ faceMap sm.numFaces cs.numFaces out, OnFace ps e kv.1 ∧ g ∈ kv.2) ∧
          intersect (edgeBox bot top ps e) (if g < sm.numFaces then bS g else bC (g - sm.numFaces)) = true := by
      unfold cull
      cases h : E e with
      | none =>
        simp only [Option.map_none, Option.getD_none, List.not_mem_nil, false_iff, not_and]
        rintro ⟨kv, hkv, hon, -⟩
        have := (hE'.keys e).2 ⟨kv, hkv, hon⟩
        rw [h] at this; simp at this
      | some l => simp only [Option.map_some, Option.getD_some, List.mem_filter, hE'.faces e l h]
    rw [hmem, M.numF]
    refine and_congr_left (fun hint => ?_)
    constructor
    · rintro ⟨⟨f, L⟩, hkv, hon, hg⟩
      obtain ⟨h1, h2, -⟩ := (mem_faceMap _).1 hkv
      simp only at h1 h2 hon hg
      rw [h2, mem_mapEntry] at hg
      refine ⟨f, h1, hon, ?_⟩
      rcases hg with ⟨c, hc, rfl⟩ | ⟨c, hc, rfl⟩
      · have := (hout _ _).1 hc
        exact ⟨by omega, .inl ⟨this.1, by omega⟩⟩
      · have := (hout _ _).1 hc
        exact ⟨by omega, .inr ⟨this.1, by omega⟩⟩
    · rintro ⟨f, hf, hon, hg, hside⟩
      have hev := edge_in_face M.intact.reach (hlive f hf) hon
      have hsub := edgeBox_sub bot top hev.1 hev.2
      have hfg : g ∈ Bvh.mapEntry sm.numFaces out f := by
        rw [mem_mapEntry]
        rcases hside with ⟨h1, h2⟩ | ⟨h1, h2⟩
        · left
          refine ⟨g - sm.numFaces, (hout _ _).2 ⟨h1, by omega, ?_⟩, by omega⟩
          rw [if_neg (by omega)] at hint
          exact (C37_intersect_symm_mono _ _ _).2 (hS f h1) ((C37_intersect_symm_mono _ _ _).2 hsub hint)
        · right
          refine ⟨f - sm.numFaces, (hout _ _).2 ⟨h1, by omega, ?_⟩, by omega⟩
          rw [if_pos h1] at hint
          have hc := hC (f - sm.numFaces) (by omega)
          rw [show sm.numFaces + (f - sm.numFaces) = f by omega] at hc
          rw [(C37_intersect_symm_mono _ _ (bS g)).1]
          exact (C37_intersect_symm_mono _ _ _).2 hc ((C37_intersect_symm_mono _ _ _).2 hsub hint)
      exact ⟨(f, Bvh.mapEntry sm.numFaces out f), (mem_faceMap _).2 ⟨hf, rfl, List.ne_nil_of_mem hfg⟩, hon, hfg⟩

/-- **C61**: valid input meshes (as accepted by the loader, C33) merge into a mesh with simple faces. -/
theorem C61_valid_inputs {P : Type} {d : P} {sm cs ps : Mesh P} (M : MergeOf d sm cs ps) (hs : Preproc.ValidMesh sm.numVertices (polygons sm))
    (hc : Preproc.ValidMesh cs.numVertices (polygons cs)) : SimpleFaces ps := by
  refine C61_simple M.intact.reach (fun f hf => ?_)
  have hf' := hf.1
  have hn := M.numF
  rw [M.intact.numF] at hn
  rw [hn] at hf'
  by_cases h : f < sm.numFaces
  · rw [M.smFaces f h]
    exact (hs.1 _ (List.mem_map.2 ⟨f, List.mem_range.2 h, rfl⟩)).2.1
  · have hr := M.cmFaces (f - sm.numFaces) (by omega)
    rw [show sm.numFaces + (f - sm.numFaces) = f by omega] at hr
    rw [hr.perm.nodup_iff]
    exact ((hc.1 _ (List.mem_map.2 ⟨f - sm.numFaces, List.mem_range.2 (by omega), rfl⟩)).2.1).map (fun a b h => by simpa using h)

/-- **C61 (broad phase and pairing together).** For valid meshes of up to 2^23 faces each, any face order in the hierarchies, any thread schedules, and any face boxes that
contain the faces: when the hierarchies report anything, the lists contain exactly the pairs of an edge and a face of the other mesh whose boxes meet.
Missing: face counts above 2^23 (C36_lost_face_fails). -/
theorem C61_pipeline_partial {d : V3 α} {sm cs ps : Mesh (V3 α)} (M : MergeOf d sm cs ps) (hs : Preproc.ValidMesh sm.numVertices (polygons sm))
    (hc : Preproc.ValidMesh cs.numVertices (polygons cs)) (bot top : α) (bS bC : Nat → BBox α)
    (hS : ∀ f, f < sm.numFaces → Sub (boxOfPoints bot top ((ps.verticesAroundFace f).map ps.pos)) (bS f))
    (hC : ∀ f, f < cs.numFaces → Sub (boxOfPoints bot top ((ps.verticesAroundFace (sm.numFaces + f)).map ps.pos)) (bC f))
    (facesS facesC : List Nat) (hfS : facesS.Perm (List.range sm.numFaces)) (hfC : facesC.Perm (List.range cs.numFaces))
    (orderS orderC : Nat → List Nat) (memS memC : Nat → BBox α)
    (hS1 : 1 ≤ sm.numFaces) (hS2 : sm.numFaces ≤ 2 ^ 23) (hC1 : 1 ≤ cs.numFaces) (hC2 : cs.numFaces ≤ 2 ^ 23)
    (hoS : Bvh.CompleteOrder sm.numFaces orderS) (hoC : Bvh.CompleteOrder cs.numFaces orderC) (threads : Option Nat) (hth : ∀ t, threads = some t → 0 < t) :
    ∃ fuel out, Bvh.traverse ⟨Bvh.build bot top facesS bS orderS memS, facesS⟩ ⟨Bvh.build bot top facesC bC orderC memC, facesC⟩ fuel [(0, 0)] [] = some out ∧
      (out = [] ↔ ∀ f g, f < sm.numFaces → g < cs.numFaces → intersect (bS f) (bC g) = false) ∧
      (out ≠ [] → ∃ E, candidates bot top bS bC sm.numFaces ps (faceMap sm.numFaces cs.numFaces out) threads = some E ∧
        (∀ e l, E e = some l → l.Pairwise (· < ·)) ∧
        ∀ e g, g ∈ (E e).getD [] ↔ (∃ f, f < ps.numFaces ∧ OnFace ps e f ∧ g < ps.numFaces ∧ OtherSide sm.numFaces f g) ∧
          intersect (edgeBox bot top ps e) (if g < sm.numFaces then bS g else bC (g - sm.numFaces)) = true) := by
  have lS : facesS.length = sm.numFaces := by rw [hfS.length_eq, List.length_range]
  have lC : facesC.length = cs.numFaces := by rw [hfC.length_eq, List.length_range]
  obtain ⟨fuel, out, hrun, -⟩ := Bvh.C36_broad_phase_partial bot top facesS facesC bS bC orderS orderC memS memC (by omega) (by omega) (by omega) (by omega)
    (by rw [lS]; exact hoS) (by rw [lC]; exact hoC)
  obtain ⟨hnd, hmem⟩ := Bvh.C36_exactly_once_partial bot top facesS facesC bS bC orderS orderC memS memC (hfS.nodup_iff.2 List.nodup_range)
    (hfC.nodup_iff.2 List.nodup_range) (by omega) (by omega) (by omega) (by omega) (by rw [lS]; exact hoS) (by rw [lC]; exact hoC) fuel out hrun
  have hout : ∀ f g, (f, g) ∈ out ↔ f < sm.numFaces ∧ g < cs.numFaces ∧ intersect (bS f) (bC g) = true := by
    intro f g; rw [hmem, hfS.mem_iff, hfC.mem_iff, List.mem_range, List.mem_range]
  refine ⟨fuel, out, hrun, ?_, fun hne => ?_⟩
  · constructor
    · intro h f g hf hg
      by_contra hc'
      have := (hout f g).2 ⟨hf, hg, by simpa using hc'⟩
      rw [h] at this; simp at this
    · intro h
      by_contra hne
      obtain ⟨⟨f, g⟩, hp⟩ := List.exists_mem_of_ne_nil out hne
      obtain ⟨h1, h2, h3⟩ := (hout f g).1 hp
      rw [h f g h1 h2] at h3; simp at h3
  · exact C61_complete M (C61_valid_inputs M hs hc) bot top bS bC hS hC out hnd hout hne threads (fun t ht => ⟨hth t ht, by omega⟩)

end

-- non-vacuity: two triangles sharing an edge (faces 0, 1) against one triangle (face 2)
/-- A mesh of three triangles, the first two sharing an edge. -/
def demo : Mesh Unit := (runAll (Mesh.empty ()) [.addVertex (), .addVertex (), .addVertex (), .addVertex (), .addVertex (), .addVertex (), .addVertex (),
  .addFace [0, 1, 2], .addFace [0, 2, 3], .addFace [4, 5, 6]]).getD (Mesh.empty ())

example : IsFaceMap demo [(0, [2]), (1, [2]), (2, [1, 0])] := by
  refine ⟨by decide, ?_, by decide⟩
  unfold LiveF Live; decide +kernel

example : ((parallelPairs demo [(0, [2]), (1, [2]), (2, [1, 0])] 4).map (fun M => (List.range 9).map M)) =
    some [some [2], some [2], some [2], some [2], some [2], some [0, 1], some [0, 1], some [0, 1], none] := by decide +kernel
example : ((sequentialPairs demo [(0, [2]), (1, [2]), (2, [1, 0])]).map (fun M => (List.range 9).map M)) =
    some [some [2], some [2], some [2], some [2], some [2], some [0, 1], some [0, 1], some [0, 1], none] := by decide +kernel
example : SimpleFaces demo := by
  have : runAll (Mesh.empty ()) [.addVertex (), .addVertex (), .addVertex (), .addVertex (), .addVertex (), .addVertex (), .addVertex (),
    .addFace [0, 1, 2], .addFace [0, 2, 3], .addFace [4, 5, 6]] ≠ none := by decide +kernel
  obtain ⟨m, hm⟩ := Option.ne_none_iff_exists'.1 this
  have e : demo = m := by unfold demo; rw [hm]; rfl
  refine C61_simple (d := ()) (by rw [e]; exact runAll_reachable _ _ _ .empty hm) (fun f hf => ?_)
  have hn : demo.nF = 3 := by decide +kernel
  have := hf.1; rw [hn] at this
  have : f = 0 ∨ f = 1 ∨ f = 2 := by omega
  rcases this with rfl | rfl | rfl <;> decide +kernel

/-- Two crossing triangles. -/
def opsA : List (Op (V3 Int)) := [.addVertex ⟨0, 0, 0⟩, .addVertex ⟨4, 0, 0⟩, .addVertex ⟨0, 4, 0⟩, .addFace [0, 1, 2]]
def opsB : List (Op (V3 Int)) := [.addVertex ⟨1, 1, -1⟩, .addVertex ⟨1, 1, 1⟩, .addVertex ⟨9, 9, 0⟩, .addFace [0, 1, 2]]
def sA : Mesh (V3 Int) := (runAll (Mesh.empty ⟨0, 0, 0⟩) opsA).getD (Mesh.empty ⟨0, 0, 0⟩)
def sB : Mesh (V3 Int) := (runAll (Mesh.empty ⟨0, 0, 0⟩) opsB).getD (Mesh.empty ⟨0, 0, 0⟩)

theorem runAll_intact {P : Type} (d : P) (ops : List (Op P)) (h : runAll (Mesh.empty d) ops ≠ none)
    (hv : ((runAll (Mesh.empty d) ops).getD (Mesh.empty d)).vRem = [] ∧ ((runAll (Mesh.empty d) ops).getD (Mesh.empty d)).fRem = []) :
    Intact d ((runAll (Mesh.empty d) ops).getD (Mesh.empty d)) := by
  obtain ⟨m, hm⟩ := Option.ne_none_iff_exists'.1 h
  refine ⟨?_, hv⟩
  rw [hm]; exact runAll_reachable _ _ _ .empty hm

-- the hypotheses of `C61_complete` are met by two crossing triangles
example : ∃ ps : Mesh (V3 Int), MergeOf ⟨0, 0, 0⟩ sA sB ps ∧ SimpleFaces ps ∧
    (∀ f g : Nat, (f, g) ∈ [(0, 0)] ↔ f < sA.numFaces ∧ g < sB.numFaces ∧
      intersect ((fun f => boxOfPoints (-99) 99 ((ps.verticesAroundFace f).map ps.pos)) f)
        ((fun g => boxOfPoints (-99) 99 ((ps.verticesAroundFace (sA.numFaces + g)).map ps.pos)) g) = true) := by
  have hA : Intact ⟨0, 0, 0⟩ sA := runAll_intact _ opsA (by decide +kernel) (by decide +kernel)
  have hB : Intact ⟨0, 0, 0⟩ sB := runAll_intact _ opsB (by decide +kernel) (by decide +kernel)
  have vA : Preproc.ValidMesh sA.numVertices (polygons sA) := by unfold Preproc.ValidMesh Preproc.GoodFace; decide +kernel
  have vB : Preproc.ValidMesh sB.numVertices (polygons sB) := by unfold Preproc.ValidMesh Preproc.GoodFace; decide +kernel
  obtain ⟨S, hS, M, -⟩ := C60_soup 0 hA hB vB none (by intro t h; cases h)
  refine ⟨S.ps, M, C61_valid_inputs M vA vB, fun f g => ?_⟩
  have nA : sA.numFaces = 1 := by decide +kernel
  have nB : sB.numFaces = 1 := by decide +kernel
  have hi : (soup 0 sA sB none).map (fun S => intersect (boxOfPoints (-99) 99 ((S.ps.verticesAroundFace 0).map S.ps.pos))
      (boxOfPoints (-99) 99 ((S.ps.verticesAroundFace (1 + 0)).map S.ps.pos))) = some true := by decide +kernel
  rw [hS] at hi
  have hi := Option.some.inj hi
  rw [nA, nB]
  simp only [List.mem_singleton, Prod.mk.injEq]
  constructor
  · rintro ⟨rfl, rfl⟩; exact ⟨by omega, by omega, hi⟩
  · rintro ⟨h1, h2, -⟩; omega

end Mcut.Pairs
