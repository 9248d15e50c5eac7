import Verif.Lemmas.C59Save

/-! # C59: the kernel splits the traced polygons into their connected components -/
namespace Mcut.Extract
open Mcut.Hmesh Mcut.Preproc Mcut.Sched
variable {P : Type} {d : P} {m0 : Mesh P} {polys : List (List Nat)}

theorem Ins.edge_iff {m : Mesh P} {fs : List (List Nat)} (B : Ins d m0 fs m) (W0 : WF m0) (u v : Nat) : MeshEdge m u v ↔ MeshEdge m0 u v := by
  have W := reachable_wf B.reach
  unfold MeshEdge
  constructor
  · rintro ⟨h, h1, h2, h3⟩
    have l := (B.live h).1 h1
    refine ⟨h, l, ?_, ?_⟩
    · rw [W0.source l, ← B.tgt]; rw [W.source h1] at h2; exact h2
    · show (m0.hd h).t = v
      rw [← B.tgt]; exact h3
  · rintro ⟨h, h1, h2, h3⟩
    have l := (B.live h).2 h1
    refine ⟨h, l, ?_, ?_⟩
    · rw [W.source l, B.tgt]; rw [W0.source h1] at h2; exact h2
    · show (m.hd h).t = v
      rw [B.tgt]; exact h3

theorem Ins.connected_iff {m : Mesh P} {fs : List (List Nat)} (B : Ins d m0 fs m) (W0 : WF m0) (u v : Nat) : Connected m u v ↔ Connected m0 u v := by
  have : MeshEdge m = MeshEdge m0 := by funext x y; exact propext (B.edge_iff W0 x y)
  unfold Connected; rw [this]

theorem Ins.around {m : Mesh P} (B : Ins d m0 (polys.map (fun p => p.map m0.target)) m) (f : Nat) (hf : f < polys.length) :
    m.verticesAroundFace f = (corners m0 polys f).rotate 1 := by
  have := B.tgts f (corners m0 polys f) (by simp [corners, List.getD_eq_getElem?_getD, hf])
  exact this

theorem corners_get (f : Nat) (hf : f < polys.length) : (polys.map (fun p => p.map m0.target))[f]'(by simpa using hf) = corners m0 polys f := by
  simp [corners, List.getD_eq_getElem?_getD, hf]

theorem mem_rotate_pairs (l : List Nat) (p : Nat × Nat) : p ∈ cycPairs (l.rotate 1) ↔ p ∈ cycPairs l := by
  have : cycPairs (l.rotate 1) = (cycPairs l).rotate 1 := by
    unfold cycPairs
    exact (List.zipWith_rotate_distrib Prod.mk l (l.rotate 1) 1 (by simp)).symm
  rw [this, List.mem_rotate]

theorem Ins.facesOK {m : Mesh P} (B : Ins d m0 (polys.map (fun p => p.map m0.target)) m) (T : Traced m0 polys) : FacesOK m polys.length := by
  refine ⟨fun f hf => ?_, fun f g hf hg hne p hp hq => ?_⟩
  · rw [B.around f hf]
    have G := T.valid.1 (corners m0 polys f) (by rw [← corners_get f hf]; exact List.getElem_mem _)
    refine ⟨by simpa using G.1, by simpa using G.2.1, fun v hv => ?_⟩
    rw [List.mem_rotate] at hv
    rw [B.nV]; exact G.2.2 v hv
  · rw [B.around f hf, mem_rotate_pairs] at hp
    rw [B.around g hg, mem_rotate_pairs] at hq
    have hv := T.valid.2
    rw [show dirEdges = cycPairs from by funext f; exact dirEdges_eq f] at hv
    rw [List.nodup_flatMap] at hv
    have hpw := List.pairwise_iff_getElem.1 hv.2
    have hlen : (polys.map (fun p => p.map m0.target)).length = polys.length := by simp
    rcases Nat.lt_or_gt_of_ne hne with h | h
    · have := hpw f g (by omega) (by omega) h
      rw [corners_get f hf, corners_get g hg] at this
      exact this hp hq
    · have := hpw g f (by omega) (by omega) h
      rw [corners_get f hf, corners_get g hg] at this
      exact this hq hp

/-- What the internal run looks like. -/
theorem extract_parts (hr : Reachable d m0) (T : Traced m0 polys) (a : Args) (threads : Option Nat)
    (ht : ∀ t, threads = some t → 0 < t ∧ polys.length + 1024 ≤ 2 ^ 32) (order : List Nat) (ho : faceOrder polys.length threads = some order) :
    Ins d m0 (polys.map (fun p => p.map m0.target)) (insertPolygons m0 polys) ∧
    ∃ (s : St P) (R : Nat → Option (Rec P)), VI d (insertPolygons m0 polys) a s (List.range polys.length) ∧ order.Perm (List.range polys.length) ∧
      FI d (insertPolygons m0 polys) a s R order ∧
      ∀ out0, extract d m0 polys a threads out0 =
        (saveAll a s.loc R (List.range (findComponents (insertPolygons m0 polys)).num) out0).map (fun out => (insertPolygons m0 polys, out)) := by
  have B := insert_spec hr T
  unfold extract
  simp only
  generalize hm : insertPolygons m0 polys = mm at B
  have W := reachable_wf B.reach
  have hfs : enumerateFrom mm.fRem mm.nF 0 = List.range polys.length := by
    rw [enum_live, B.fRem, B.nF]; simp [liveList]
  have hn : mm.numFaces = polys.length := by simp [Mesh.numFaces, B.fRem, B.nF]
  have hc : ∀ f, f < polys.length → faceComponent mm f ≠ none := by
    intro f hf
    have hl : LiveF mm f := (B.liveF f).2 (by simpa using hf)
    have hlen := (W.faceOK hl).len
    have hne : mm.verticesAroundFace f ≠ [] := by
      intro he
      have := congrArg List.length he
      simp [Mesh.verticesAroundFace] at this
      rw [this] at hlen; simp at hlen
    obtain ⟨v, hv⟩ := List.exists_mem_of_ne_nil _ hne
    exact (C34_faces B.reach B.vRem f hl v hv).2
  rw [hfs, hn]
  have V0 : VI d mm a ⟨fun _ => none, fun _ => none⟩ [] := ⟨by simp, by simp, by intro k; simp [sideOf]⟩
  obtain ⟨s, hs, V⟩ := mapFaces_spec a (List.range polys.length) [] _ (fun f hf => hc f (List.mem_range.1 hf)) V0
  rw [List.nil_append] at V
  rw [hs, ho]
  simp only [Option.bind_some]
  have hperm := faceOrder_perm ht ho
  obtain ⟨R, hR, I⟩ := insertFaces_spec (B.facesOK T) V hc order [] s.recs (by simpa using hperm.nodup_iff.2 List.nodup_range)
    (by intro f hf; rw [List.nil_append] at hf; exact List.mem_range.1 (hperm.mem_iff.1 hf)) (FI.init V)
  rw [List.nil_append] at I
  refine ⟨B, s, R, V, hperm, I, fun out0 => ?_⟩
  rw [hR]
  rfl

theorem extract_run (hr : Reachable d m0) (T : Traced m0 polys) (a : Args) (threads : Option Nat)
    (ht : ∀ t, threads = some t → 0 < t ∧ polys.length + 1024 ≤ 2 ^ 32) (mesh : Mesh P) (out0 out : Store P)
    (h : extract d m0 polys a threads out0 = some (mesh, out)) :
    Ins d m0 (polys.map (fun p => p.map m0.target)) mesh ∧
    ∃ (s : St P) (order : List Nat) (R : Nat → Option (Rec P)), VI d mesh a s (List.range polys.length) ∧ order.Perm (List.range polys.length) ∧
      FI d mesh a s R order ∧ saveAll a s.loc R (List.range (findComponents mesh).num) out0 = some out := by
  cases ho : faceOrder polys.length threads with
  | none =>
    exfalso
    have B := insert_spec hr T
    have hn : (insertPolygons m0 polys).numFaces = polys.length := by simp [Mesh.numFaces, B.fRem, B.nF]
    unfold extract at h
    simp only [hn, ho, Option.bind_none] at h
    have hz : ∀ x : Option (St P), x.bind (fun _ => (none : Option (Mesh P × Store P))) ≠ some (mesh, out) := by
      intro x; cases x <;> simp
    exact hz _ h
  | some order =>
    obtain ⟨B, s, R, V, hp, I, he⟩ := extract_parts hr T a threads ht order ho
    rw [he out0] at h
    cases hsv : saveAll a s.loc R (List.range (findComponents (insertPolygons m0 polys)).num) out0 with
    | none => rw [hsv] at h; cases h
    | some o =>
      rw [hsv] at h
      simp only [Option.map_some, Option.some.injEq, Prod.mk.injEq] at h
      obtain ⟨rfl, rfl⟩ := h
      exact ⟨B, s, order, R, V, hp, I, hsv⟩

theorem same_component {m : Mesh P} (hr : Reachable d m0) (B : Ins d m0 (polys.map (fun p => p.map m0.target)) m) (T : Traced m0 polys) (f g : Nat)
    (hf : f < polys.length) (hg : g < polys.length) : faceComponent m f = faceComponent m g ↔ Linked m0 polys f g := by
  have W0 := reachable_wf hr
  have W := reachable_wf B.reach
  obtain ⟨c1, c2, -⟩ := C34_components B.reach B.vRem
  have hnv : m.numVertices = m0.nV := by simp [Mesh.numVertices, B.vRem, B.nV]
  have hlf := fun f (hf : f < polys.length) => C34_faces B.reach B.vRem f ((B.liveF f).2 (by simpa using hf))
  have hmem : ∀ f, f < polys.length → ∀ v, v ∈ m.verticesAroundFace f ↔ v ∈ corners m0 polys f := by
    intro f hf v; rw [B.around f hf, List.mem_rotate]
  have hlt : ∀ f, f < polys.length → ∀ v ∈ corners m0 polys f, v < m.numVertices := by
    intro f hf v hv
    have G := T.valid.1 (corners m0 polys f) (by rw [← corners_get f hf]; exact List.getElem_mem _)
    rw [hnv]; exact G.2.2 v hv
  have hex : ∀ f, f < polys.length → ∃ v, v ∈ corners m0 polys f := by
    intro f hf
    have G := T.valid.1 (corners m0 polys f) (by rw [← corners_get f hf]; exact List.getElem_mem _)
    apply List.exists_mem_of_ne_nil
    intro he; rw [he] at G; have := G.1; simp at this
  constructor
  · intro he
    obtain ⟨u, hu⟩ := hex f hf
    obtain ⟨v, hv⟩ := hex g hg
    refine ⟨u, v, hu, hv, ?_⟩
    rw [← B.connected_iff W0, ← c2 u v (hlt f hf u hu) (hlt g hg v hv)]
    rw [← (hlf f hf u ((hmem f hf u).2 hu)).1, ← (hlf g hg v ((hmem g hg v).2 hv)).1, he]
  · rintro ⟨u, v, hu, hv, hc⟩
    rw [(hlf f hf u ((hmem f hf u).2 hu)).1, (hlf g hg v ((hmem g hg v).2 hv)).1]
    rw [c2 u v (hlt f hf u hu) (hlt g hg v hv), B.connected_iff W0]
    exact hc

theorem kept_iff (a : Args) (l : List Nat) : kept a.keep (sideOf a l) = true ↔ Wanted a l := by
  unfold Wanted kept
  cases sideOf a l with
  | none => simp
  | some x => cases x <;> simp

theorem sideOf_perm (a : Args) {l l' : List Nat} (h : l.Perm l') : sideOf a l = sideOf a l' := by
  have : ∀ s : List Nat, (∃ g ∈ l, g ∈ s) ↔ (∃ g ∈ l', g ∈ s) := by
    intro s; constructor <;> rintro ⟨g, h1, h2⟩
    · exact ⟨g, h.mem_iff.1 h1, h2⟩
    · exact ⟨g, h.mem_iff.2 h1, h2⟩
  unfold sideOf
  simp only [this]

/-- **C59.** When the traced polygons (closed walks that form a valid polygon mesh) are split into components, for every thread count: every polygon belongs to
exactly one group; two polygons are in the same group exactly when they are connected by edges; a group is stored exactly when it is wanted, once; what is stored
is a copy of the polygons of the group (same corners in the same order, same coordinates, nothing else); its location is below or above when all its marked
polygons are, otherwise undefined; its seam vertices are the copies of the marked vertices, and its maps give the origin of every vertex and face. -/
theorem C59_components (hr : Reachable d m0) (T : Traced m0 polys) (a : Args) (threads : Option Nat)
    (ht : ∀ t, threads = some t → 0 < t ∧ polys.length + 1024 ≤ 2 ^ 32) (mesh : Mesh P) (out : Store P)
    (h : extract d m0 polys a threads (fun _ => []) = some (mesh, out)) :
    ∃ vs fs : Nat → List Nat,
      (∀ f, f < polys.length → ∃ k, f ∈ fs k ∧ ∀ k', f ∈ fs k' → k' = k) ∧
      (∀ k f, f ∈ fs k → ∀ g, g ∈ fs k ↔ g < polys.length ∧ Linked m0 polys f g) ∧
      (∀ k, out k ≠ [] ↔ fs k ≠ [] ∧ Wanted a (fs k)) ∧
      (∀ k c, c ∈ out k → out k = [c] ∧ CopyOf d m0 polys c.1 (vs k) (fs k) ∧
        (if a.below = [] ∨ a.above = [] then c.2.loc = .undefined else sideOf a (fs k) = some c.2.loc) ∧
        (∀ i : Nat, i ∈ c.2.seams ↔ ∃ v : Nat, (vs k)[i]? = some v ∧ a.flags[v]? = some true) ∧ c.2.seams.Nodup ∧
        (a.popV = true → c.2.vmap.length = (vs k).length ∧ ∀ (i v : Nat), (vs k)[i]? = some v → vertexOrigin a.tables v = c.2.vmap[i]?) ∧
        (a.popF = true → c.2.fmap.length = (fs k).length ∧ ∀ (i f : Nat), (fs k)[i]? = some f → faceOrigin a.tables a.offset f = c.2.fmap[i]?)) := by
  obtain ⟨B, s, order, R, V, hperm, I, hsave⟩ := extract_run hr T a threads ht mesh _ out h
  have W := reachable_wf B.reach
  have hcs : ∀ f, f < polys.length → ∃ k, k < (findComponents mesh).num ∧ faceComponent mesh f = some k := by
    intro f hf
    have hl : LiveF mesh f := (B.liveF f).2 (by simpa using hf)
    obtain ⟨c1, -, -⟩ := C34_components B.reach B.vRem
    have G := (B.facesOK T).good f hf
    have hne : mesh.verticesAroundFace f ≠ [] := by intro he; rw [he] at G; have := G.1; simp at this
    obtain ⟨v, hv⟩ := List.exists_mem_of_ne_nil _ hne
    have hvl : v < mesh.numVertices := by
      have := G.2.2 v hv
      simpa [Mesh.numVertices, B.vRem] using this
    obtain ⟨k, hk, hk2⟩ := c1 v hvl
    exact ⟨k, hk, by rw [(C34_faces B.reach B.vRem f hl v hv).1]; exact hk2⟩
  let fs : Nat → List Nat := fun k => order.filter (fun f => faceComponent mesh f = some k)
  let vs : Nat → List Nat := fun k => ((s.recs k).map Rec.fromCC).getD []
  have hfs : ∀ k f, f ∈ fs k ↔ f < polys.length ∧ faceComponent mesh f = some k := by
    intro k f
    simp only [fs, List.mem_filter, hperm.mem_iff, List.mem_range, decide_eq_true_eq]
  have hloc : ∀ k, s.loc k = sideOf a (fs k) := by
    intro k
    rw [V.loc]
    exact sideOf_perm a ((hperm.symm).filter _)
  have hrec : ∀ k, s.recs k ≠ none ↔ fs k ≠ [] := by
    intro k
    rw [Ne, V.none k]
    constructor
    · intro hn he
      apply hn
      intro f hf hk
      have := (hfs k f).2 ⟨List.mem_range.1 hf, hk⟩
      rw [he] at this; cases this
    · intro hne hn
      obtain ⟨f, hf⟩ := List.exists_mem_of_ne_nil _ hne
      have := (hfs k f).1 hf
      exact hn f (List.mem_range.2 this.1) this.2
  obtain ⟨sv1, sv2⟩ := saveAll_spec (List.range (findComponents mesh).num) (fun _ => []) out List.nodup_range (fun _ _ => rfl) hsave
  have hrange : ∀ k, s.recs k ≠ none → k ∈ List.range (findComponents mesh).num := by
    intro k hk
    obtain ⟨f, hf⟩ := List.exists_mem_of_ne_nil _ ((hrec k).1 hk)
    have := (hfs k f).1 hf
    obtain ⟨j, hj, hj2⟩ := hcs f this.1
    rw [this.2] at hj2; injection hj2 with hj2; subst hj2
    exact List.mem_range.2 hj
  -- what is stored
  have hout : ∀ k, (s.recs k = none ∨ kept a.keep (s.loc k) = false → out k = []) ∧
      (∀ r0, s.recs k = some r0 → kept a.keep (s.loc k) = true → ∃ r c, R k = some r ∧ out k = [c] ∧ Saved a (s.loc k) r c) := by
    intro k
    constructor
    · rintro (hn | hk)
      · by_cases hkr : k ∈ List.range (findComponents mesh).num
        · exact (sv2 k hkr).1 (I.none k hn)
        · exact sv1 k hkr
      · by_cases hkr : k ∈ List.range (findComponents mesh).num
        · cases hRk : R k with
          | none => exact (sv2 k hkr).1 hRk
          | some r => exact ((sv2 k hkr).2 r hRk).1 hk
        · exact sv1 k hkr
    · intro r0 hr0 hk
      obtain ⟨r, hRk, -⟩ := I.some k r0 hr0
      obtain ⟨c, hc1, hc2⟩ := ((sv2 k (hrange k (by rw [hr0]; simp))).2 r hRk).2 hk
      exact ⟨r, c, hRk, hc1, hc2⟩
  refine ⟨vs, fs, ?_, ?_, ?_, ?_⟩
  · intro f hf
    obtain ⟨k, -, hk⟩ := hcs f hf
    refine ⟨k, (hfs k f).2 ⟨hf, hk⟩, fun k' hk' => ?_⟩
    have := ((hfs k' f).1 hk').2
    rw [hk] at this; injection this with this; exact this.symm
  · intro k f hf g
    obtain ⟨hf1, hf2⟩ := (hfs k f).1 hf
    rw [hfs]
    constructor
    · rintro ⟨h1, h2⟩
      exact ⟨h1, (same_component hr B T f g hf1 h1).1 (by rw [hf2, h2])⟩
    · rintro ⟨h1, h2⟩
      exact ⟨h1, by rw [← (same_component hr B T f g hf1 h1).2 h2]; exact hf2⟩
  · intro k
    rw [← hrec, ← kept_iff, ← hloc]
    constructor
    · intro ho
      constructor
      · intro hn; exact ho ((hout k).1 (Or.inl hn))
      · cases hk : kept a.keep (s.loc k) with
        | false => exact absurd ((hout k).1 (Or.inr hk)) ho
        | true => rfl
    · rintro ⟨hn, hk⟩
      obtain ⟨r0, hr0⟩ := Option.ne_none_iff_exists'.1 hn
      obtain ⟨r, c, -, hc, -⟩ := (hout k).2 r0 hr0 hk
      rw [hc]; simp
  · intro k c hc
    have hne : s.recs k ≠ none := by
      intro hn; rw [(hout k).1 (Or.inl hn)] at hc; cases hc
    have hk : kept a.keep (s.loc k) = true := by
      cases hk : kept a.keep (s.loc k) with
      | false => rw [(hout k).1 (Or.inr hk)] at hc; cases hc
      | true => rfl
    obtain ⟨r0, hr0⟩ := Option.ne_none_iff_exists'.1 hne
    obtain ⟨r, c', hRk, hc', S⟩ := (hout k).2 r0 hr0 hk
    rw [hc', List.mem_singleton] at hc
    subst hc
    obtain ⟨r', hRk', e1, e2, e3, hface⟩ := I.some k r0 hr0
    rw [hRk] at hRk'; injection hRk' with hRk'; subst hRk'
    obtain ⟨hfc, BB⟩ := hface hk
    have RV := V.some k r0 hr0
    have hvs : vs k = r0.fromCC := by simp [vs, hr0]
    have hfck : r.faces = fs k := hfc
    have hnV : r.mesh.numVertices = (vs k).length := by simp [Mesh.numVertices, BB.vRem, BB.nV, hvs]
    have hnF : r.mesh.numFaces = (fs k).length := by simp [Mesh.numFaces, BB.fRem, BB.nF, hfck]
    refine ⟨hc', ?_, ?_, ?_, ?_, ?_, ?_⟩
    · rw [S.mesh, hvs]
      refine ⟨BB.reach, ⟨BB.vRem, BB.fRem⟩, by rw [hnV, hvs], hnF, RV.nodup, ?_, ?_, ?_, ?_, ?_, BB.edges.1, BB.edges.2⟩
      · exact (hperm.nodup_iff.2 List.nodup_range).filter _
      · intro i v hv
        have := BB.pos i (mesh.pos v) (by rw [List.getElem?_map, hv]; rfl)
        rw [this, B.pos]
      · intro f hf; exact ((hfs k f).1 hf).1
      · intro i f hf
        have hfm := List.mem_of_getElem? hf
        obtain ⟨hf1, hf2⟩ := (hfs k f).1 hfm
        have ht' := BB.tgts i (renamed mesh r0 f) (by rw [List.getElem?_map, hfck, hf]; rfl)
        have : r.mesh.verticesAroundFace i = (renamed mesh r0 f).rotate 1 := ht'
        rw [this]
        have e : (renamed mesh r0 f).map (fun x => r0.fromCC[x]?) = (mesh.verticesAroundFace f).map some := by
          unfold renamed
          rw [List.map_map]
          apply List.map_congr_left
          intro v hv
          have hS : v ∈ r0.fromCC := (RV.mem v).2 ⟨f, List.mem_range.2 hf1, hf2, hv⟩
          obtain ⟨j, hj, hje⟩ := List.getElem_of_mem hS
          have hj' : r0.fromCC[j]? = some v := by rw [List.getElem?_eq_getElem hj, hje]
          have := (RV.toCC v j).2 hj'
          simp only [Function.comp, this, Option.getD_some, hj']
        rw [List.map_rotate, e, B.around f hf1]
        refine (List.IsRotated.symm ⟨1, rfl⟩).trans ?_
        rw [List.map_rotate]
        exact List.IsRotated.symm ⟨1, rfl⟩
      · intro v
        rw [RV.mem]
        constructor
        · rintro ⟨f, h1, h2, h3⟩
          have hf1 := List.mem_range.1 h1
          rw [B.around f hf1, List.mem_rotate] at h3
          exact ⟨f, (hfs k f).2 ⟨hf1, h2⟩, h3⟩
        · rintro ⟨f, h1, h2⟩
          obtain ⟨hf1, hf2⟩ := (hfs k f).1 h1
          exact ⟨f, List.mem_range.2 hf1, hf2, by rw [B.around f hf1, List.mem_rotate]; exact h2⟩
    · have := S.loc
      rw [hloc k] at this
      simp only [List.isEmpty_iff] at this
      by_cases hh : a.below = [] ∨ a.above = []
      · rw [if_pos hh]
        rw [if_neg (by rcases hh with hh | hh <;> simp [hh])] at this
        exact this
      · rw [if_neg hh]
        rw [not_or] at hh
        rw [if_pos hh] at this
        exact this
    · intro i
      rw [S.seams, e3, RV.seams, List.mem_filter, List.mem_range, hvs]
      constructor
      · rintro ⟨h1, h2⟩
        refine ⟨r0.fromCC[i], by simp [h1], ?_⟩
        simp only [isSeamVertex, List.getD_eq_getElem?_getD, List.getElem?_eq_getElem h1, Option.getD_some] at h2
        cases hfl : a.flags[r0.fromCC[i]]? with
        | none => rw [hfl] at h2; cases h2
        | some b => rw [hfl] at h2; simp at h2; rw [h2]
      · rintro ⟨v, h1, h2⟩
        obtain ⟨hi, hie⟩ := List.getElem?_eq_some_iff.1 h1
        refine ⟨hi, ?_⟩
        simp only [isSeamVertex, List.getD_eq_getElem?_getD, h1, Option.getD_some, h2]
    · rw [S.seams, e3, RV.seams]
      exact List.nodup_range.filter _
    · intro hp
      obtain ⟨v1, v2⟩ := S.vmap hp
      refine ⟨by rw [v1, hnV], fun i v hv => ?_⟩
      have hi := (List.getElem?_eq_some_iff.1 hv).1
      have := v2 i (by rw [hnV]; exact hi)
      rw [e2, ← hvs, hv] at this
      exact this
    · intro hp
      obtain ⟨v1, v2⟩ := S.fmap hp
      refine ⟨by rw [v1, hnF], fun i f hf => ?_⟩
      have hi := (List.getElem?_eq_some_iff.1 hf).1
      have := v2 i (by rw [hnF]; exact hi)
      rw [hfck, hf] at this
      exact this

theorem saveAll_some {a : Args} {loc : Nat → Option Loc} {R : Nat → Option (Rec P)} : ∀ (ks : List Nat) (out : Store P),
    (∀ k ∈ ks, ∀ r, R k = some r → kept a.keep (loc k) = true →
      (a.below ≠ [] → a.above ≠ [] → loc k ≠ none) ∧
      (a.popV = true → ∀ i, i < r.mesh.numVertices → (r.fromCC[i]?).bind (vertexOrigin a.tables) ≠ none) ∧
      (a.popF = true → ∀ i, i < r.mesh.numFaces → (r.faces[i]?).bind (faceOrigin a.tables a.offset) ≠ none)) →
    saveAll a loc R ks out ≠ none := by
  intro ks
  induction ks with
  | nil => intro out _; simp [saveAll]
  | cons k ks ih =>
    intro out h
    unfold saveAll
    cases hR : R k with
    | none => exact ih out (fun j hj => h j (by simp [hj]))
    | some r =>
      simp only
      have hone : saveOne a loc k r out ≠ none := by
        unfold saveOne
        by_cases hk : kept a.keep (loc k) = true
        · obtain ⟨h1, h2, h3⟩ := h k (by simp) r hR hk
          rw [if_pos hk]
          simp only
          have l1 : ∃ l, (if ¬ a.below.isEmpty ∧ ¬ a.above.isEmpty then loc k else some Loc.undefined) = some l := by
            split
            · next hc =>
              simp only [List.isEmpty_iff] at hc
              exact Option.ne_none_iff_exists'.1 (h1 hc.1 hc.2)
            · exact ⟨_, rfl⟩
          have l2 : ∃ l, (if a.popV then (List.range r.mesh.numVertices).mapM (fun i => (r.fromCC[i]?).bind (vertexOrigin a.tables)) else some []) = some l := by
            split
            · next hc =>
              exact ⟨_, mapM_some _ none _ (fun i hi => h2 hc i (List.mem_range.1 hi))⟩
            · exact ⟨_, rfl⟩
          have l3 : ∃ l, (if a.popF then (List.range r.mesh.numFaces).mapM (fun i => (r.faces[i]?).bind (faceOrigin a.tables a.offset)) else some []) = some l := by
            split
            · next hc =>
              exact ⟨_, mapM_some _ 0 _ (fun i hi => h3 hc i (List.mem_range.1 hi))⟩
            · exact ⟨_, rfl⟩
          obtain ⟨x, hx⟩ := l1
          obtain ⟨y, hy⟩ := l2
          obtain ⟨z, hz⟩ := l3
          rw [hx, hy, hz]
          split <;> (simp only [Option.bind_some]; split <;> simp)
        · rw [if_neg hk]; simp
      obtain ⟨o, ho⟩ := Option.ne_none_iff_exists'.1 hone
      rw [ho]
      exact ih o (fun j hj => h j (by simp [hj]))

/-- **C59 (no exception).** The extraction does not throw if there is at least one polygon, the tables have an entry for every corner and polygon, and, when
both kinds of marks exist, every polygon is connected to a marked one. -/
theorem C59_no_exception (hr : Reachable d m0) (T : Traced m0 polys) (a : Args) (threads : Option Nat)
    (ht : ∀ t, threads = some t → 0 < t ∧ polys.length + 1024 ≤ 2 ^ 32) (hne : polys ≠ [])
    (hv : a.popV = true → ∀ f, f < polys.length → ∀ v ∈ corners m0 polys f, vertexOrigin a.tables v ≠ none)
    (hf : a.popF = true → ∀ f, f < polys.length → faceOrigin a.tables a.offset f ≠ none)
    (hl : a.below ≠ [] → a.above ≠ [] → ∀ f, f < polys.length → ∃ g, g < polys.length ∧ Linked m0 polys f g ∧ (g ∈ a.below ∨ g ∈ a.above)) (out0 : Store P) :
    extract d m0 polys a threads out0 ≠ none := by
  have hord : ∃ order, faceOrder polys.length threads = some order := by
    cases threads with
    | none => exact ⟨_, rfl⟩
    | some t =>
      obtain ⟨h1, h2⟩ := ht t rfl
      obtain ⟨bs, hb, -⟩ := C17_blocks_partition_partial polys.length t 1024 (List.length_pos_of_ne_nil hne) h1 (by omega) h2
      unfold faceOrder
      simp only [hb]
      exact ⟨_, rfl⟩
  obtain ⟨order, ho⟩ := hord
  obtain ⟨B, s, R, V, hperm, I, he⟩ := extract_parts hr T a threads ht order ho
  rw [he]
  have key := saveAll_some (a := a) (loc := s.loc) (R := R) (List.range (findComponents (insertPolygons m0 polys)).num) out0 (by
    intro k _ r hR hk
    cases hs : s.recs k with
    | none => rw [I.none k hs] at hR; cases hR
    | some r0 =>
      obtain ⟨r', hR', e1, e2, e3, hface⟩ := I.some k r0 hs
      rw [hR] at hR'; injection hR' with hR'; subst hR'
      obtain ⟨hfc, BB⟩ := hface hk
      have RV := V.some k r0 hs
      refine ⟨fun hb ha hloc => ?_, fun hp i hi => ?_, fun hp i hi => ?_⟩
      · -- there is a face in the component
        have hex : ∃ f, f < polys.length ∧ faceComponent (insertPolygons m0 polys) f = some k := by
          by_contra hcon
          have : s.recs k = none := (V.none k).2 (fun f hf hfk => hcon ⟨f, List.mem_range.1 hf, hfk⟩)
          rw [hs] at this; cases this
        obtain ⟨f, hf1, hf2⟩ := hex
        obtain ⟨g, hg1, hg2, hg3⟩ := hl hb ha f hf1
        have hgk := (same_component hr B T f g hf1 hg1).2 hg2
        rw [hf2] at hgk
        rw [V.loc] at hloc
        have hgm : g ∈ (List.range polys.length).filter (fun f => faceComponent (insertPolygons m0 polys) f = some k) := by
          rw [List.mem_filter]; exact ⟨List.mem_range.2 hg1, by simpa using hgk.symm⟩
        unfold sideOf at hloc
        split at hloc
        · cases hloc
        · split at hloc
          · cases hloc
          · split at hloc
            · cases hloc
            · next h1 h2 h3 =>
              rcases hg3 with hg3 | hg3
              · exact h2 ⟨g, hgm, hg3⟩
              · exact h3 ⟨g, hgm, hg3⟩
      · have hlen : r.mesh.numVertices = r.fromCC.length := by simp [Mesh.numVertices, BB.vRem, BB.nV, e2]
        rw [hlen] at hi
        rw [List.getElem?_eq_getElem hi]
        simp only [Option.bind_some]
        have hm := (RV.mem r.fromCC[i]).1 (by rw [← e2]; exact List.getElem_mem hi)
        obtain ⟨f, hf1, -, hf3⟩ := hm
        have hf1' := List.mem_range.1 hf1
        rw [B.around f hf1', List.mem_rotate] at hf3
        exact hv hp f hf1' _ hf3
      · have hlen : r.mesh.numFaces = r.faces.length := by simp [Mesh.numFaces, BB.fRem, BB.nF]
        rw [hlen] at hi
        rw [List.getElem?_eq_getElem hi]
        simp only [Option.bind_some]
        have hm' : ∀ f ∈ r.faces, f < polys.length := by
          intro f hf
          rw [hfc, List.mem_filter, hperm.mem_iff, List.mem_range] at hf
          exact hf.1
        exact hf hp _ (hm' _ (List.getElem_mem hi)))
  intro hcon
  cases hsv : saveAll a s.loc R (List.range (findComponents (insertPolygons m0 polys)).num) out0 with
  | none => exact key hsv
  | some o => rw [hsv] at hcon; cases hcon

/-- **C59 (exception).** When both kinds of marks exist and some polygon is connected to no marked polygon, the extraction throws. -/
theorem C59_unmarked_throws (hr : Reachable d m0) (T : Traced m0 polys) (a : Args) (threads : Option Nat)
    (ht : ∀ t, threads = some t → 0 < t ∧ polys.length + 1024 ≤ 2 ^ 32) (hb : a.below ≠ []) (ha : a.above ≠ []) (f : Nat) (hf : f < polys.length)
    (hno : ∀ g, g < polys.length → Linked m0 polys f g → g ∉ a.below ∧ g ∉ a.above) :
    extract d m0 polys a threads (fun _ => []) = none := by
  cases he : extract d m0 polys a threads (fun _ => []) with
  | none => rfl
  | some r =>
    exfalso
    obtain ⟨vs, fs, h1, h2, h3, h4⟩ := C59_components hr T a threads ht r.1 r.2 he
    obtain ⟨k, hk, -⟩ := h1 f hf
    have hs : sideOf a (fs k) = none := by
      have hb' : ¬ ∃ g ∈ fs k, g ∈ a.below := by
        rintro ⟨g, hg, hgb⟩
        have := (h2 k f hk g).1 hg
        exact (hno g this.1 this.2).1 hgb
      have ha' : ¬ ∃ g ∈ fs k, g ∈ a.above := by
        rintro ⟨g, hg, hgb⟩
        have := (h2 k f hk g).1 hg
        exact (hno g this.1 this.2).2 hgb
      unfold sideOf
      rw [if_neg (fun h => hb' h.1), if_neg hb', if_neg ha']
    have hw : Wanted a (fs k) := by unfold Wanted; rw [hs]; trivial
    have hout := (h3 k).2 ⟨(by intro h0; rw [h0] at hk; cases hk), hw⟩
    obtain ⟨c, hc⟩ := List.exists_mem_of_ne_nil _ hout
    have := (h4 k c hc).2.2.1
    rw [if_neg (by simp [hb, ha]), hs] at this
    cases this

theorem saveOne_again {a : Args} {loc : Nat → Option Loc} {k : Nat} {r : Rec P} {F0 F : Store P} (out : Store P) (h : saveOne a loc k r F0 = some F) (hk : F0 k = []) :
    ∃ out', saveOne a loc k r out = some out' ∧ (∀ j, j ≠ k → out' j = out j) ∧ Appended (out k) (F k) (out' k) := by
  unfold saveOne at h ⊢
  by_cases hkeep : kept a.keep (loc k) = true
  · rw [if_pos hkeep, hk] at h
    rw [if_pos hkeep]
    simp only [List.getLast?_nil, if_true] at h
    generalize (if ¬ a.below.isEmpty ∧ ¬ a.above.isEmpty then loc k else some Loc.undefined) = ol at h ⊢
    cases ol with
    | none => cases h
    | some l =>
      simp only [Option.bind_some] at h ⊢
      generalize (if a.popV then (List.range r.mesh.numVertices).mapM (fun i => (r.fromCC[i]?).bind (vertexOrigin a.tables)) else some []) = ov at h ⊢
      cases ov with
      | none => cases h
      | some vm =>
        simp only [Option.bind_some] at h ⊢
        generalize (if a.popF then (List.range r.mesh.numFaces).mapM (fun i => (r.faces[i]?).bind (faceOrigin a.tables a.offset)) else some []) = of at h ⊢
        cases of with
        | none => cases h
        | some fm =>
          simp only [Option.bind_some, Option.some.injEq] at h ⊢
          subst h
          rw [upd_same]
          cases hlast : (out k).getLast? with
          | none =>
            simp only [if_true]
            refine ⟨_, rfl, fun j hj => upd_other _ _ _ _ hj, ⟨fun ⟨c, x, h1, _⟩ => (by rw [hlast] at h1; cases h1), fun _ => by rw [upd_same]; simp⟩⟩
          | some c =>
            simp only
            by_cases hc : c.1.numFaces = r.mesh.numFaces
            · refine ⟨out, by simp [hc], fun _ _ => rfl, fun _ => rfl, fun h => absurd ⟨c, _, hlast, List.mem_append_right _ List.mem_cons_self, hc⟩ h⟩
            · refine ⟨_, by simp only [ne_eq, hc, not_false_eq_true, decide_true, if_true]; rfl, fun j hj => upd_other _ _ _ _ hj, fun ⟨c', x, h1, h2, h3⟩ => ?_, fun _ => by rw [upd_same]; simp⟩
              rw [hlast] at h1
              obtain rfl := Option.some.inj h1
              rw [List.nil_append, List.mem_singleton] at h2
              subst h2
              exact absurd h3 hc
  · rw [if_neg hkeep] at h
    rw [if_neg hkeep]
    injection h with h; subst h
    refine ⟨out, rfl, fun _ _ => rfl, fun _ => rfl, fun _ => by rw [hk, List.append_nil]⟩

theorem saveAll_again {a : Args} {loc : Nat → Option Loc} {R : Nat → Option (Rec P)} : ∀ (ks : List Nat) (F0 F out : Store P), ks.Nodup → (∀ k ∈ ks, F0 k = []) →
    saveAll a loc R ks F0 = some F → ∃ out', saveAll a loc R ks out = some out' ∧ (∀ j, j ∉ ks → out' j = out j) ∧ ∀ k ∈ ks, Appended (out k) (F k) (out' k) := by
  intro ks
  induction ks with
  | nil => intro F0 F out _ _ _; exact ⟨out, rfl, fun _ _ => rfl, by simp⟩
  | cons k ks ih =>
    intro F0 F out hnd hF h
    rw [List.nodup_cons] at hnd
    unfold saveAll at h ⊢
    have key : ∀ F1 out1, (∀ j, j ≠ k → F1 j = F0 j) → (∀ j, j ≠ k → out1 j = out j) → Appended (out k) (F1 k) (out1 k) → saveAll a loc R ks F1 = some F →
        ∃ out', saveAll a loc R ks out1 = some out' ∧ (∀ j, j ∉ k :: ks → out' j = out j) ∧ ∀ j ∈ k :: ks, Appended (out j) (F j) (out' j) := by
      intro F1 out1 e1 e2 e3 e4
      have fresh : ∀ j ∈ ks, F1 j = [] := fun j hj => by
        rw [e1 j (by rintro rfl; exact hnd.1 hj)]; exact hF j (List.mem_cons_of_mem _ hj)
      obtain ⟨out', o1, o2, o3⟩ := ih F1 F out1 hnd.2 fresh e4
      have FF := (saveAll_spec ks F1 F hnd.2 fresh e4).1
      refine ⟨out', o1, fun j hj => ?_, fun j hj => ?_⟩
      · rw [List.mem_cons, not_or] at hj
        rw [o2 j hj.2, e2 j hj.1]
      · rcases List.mem_cons.1 hj with rfl | hj'
        · rw [FF _ hnd.1, o2 _ hnd.1]; exact e3
        · have := o3 j hj'
          rw [e2 j (by intro e; exact hnd.1 (e ▸ hj'))] at this
          exact this
    cases hR : R k with
    | none =>
      rw [hR] at h
      refine key F0 out (fun _ _ => rfl) (fun _ _ => rfl) ⟨fun _ => rfl, fun _ => ?_⟩ h
      rw [hF k List.mem_cons_self, List.append_nil]
    | some r =>
      rw [hR] at h
      simp only at h ⊢
      cases hs : saveOne a loc k r F0 with
      | none => rw [hs] at h; cases h
      | some F1 =>
        rw [hs] at h
        simp only [Option.bind_some] at h
        obtain ⟨out1, q1, q2, q3⟩ := saveOne_again out hs (hF k List.mem_cons_self)
        rw [q1, Option.bind_some]
        exact key F1 out1 (saveOne_spec hs (hF k List.mem_cons_self)).1 q2 q3 h

/-- **C59, later calls.** When `extract_connected_components` is called with a map that already has components, then what has been stored stays; and what is appended is what would be stored in an empty map — except
that a component is left out if the last one stored with its id has the same number of faces. No call fails that would succeed with an empty map. -/
theorem C59_again {d : P} {m : Mesh P} {polys : List (List Nat)} {a : Args} {threads : Option Nat} {mesh : Mesh P} {F : Store P} (out : Store P)
    (h : extract d m polys a threads (fun _ => []) = some (mesh, F)) :
    ∃ out', extract d m polys a threads out = some (mesh, out') ∧ ∀ k, Appended (out k) (F k) (out' k) := by
  unfold extract at h ⊢
  simp only at h ⊢
  generalize mapFaces d _ a.below a.above a.flags _ _ = o1 at h ⊢
  cases o1 with
  | none => cases h
  | some s =>
    simp only [Option.bind_some] at h ⊢
    generalize faceOrder _ threads = o2 at h ⊢
    cases o2 with
    | none => cases h
    | some order =>
      simp only [Option.bind_some] at h ⊢
      generalize insertFaces _ a.keep s.loc order s.recs = o3 at h ⊢
      cases o3 with
      | none => cases h
      | some R =>
        simp only [Option.bind_some] at h ⊢
        generalize hs : saveAll a s.loc R _ (fun _ => []) = o4 at h
        cases o4 with
        | none => cases h
        | some F' =>
          simp only [Option.map_some, Option.some.injEq, Prod.mk.injEq] at h
          obtain ⟨rfl, rfl⟩ := h
          obtain ⟨out', q1, q2, q3⟩ := saveAll_again _ _ _ out List.nodup_range (fun _ _ => rfl) hs
          refine ⟨out', by rw [q1]; rfl, fun k => ?_⟩
          by_cases hk : k ∈ List.range (findComponents (insertPolygons m polys)).num
          · exact q3 k hk
          · rw [q2 k hk]
            have := (saveAll_spec _ _ _ List.nodup_range (fun _ _ => rfl) hs).1 k hk
            rw [this]
            exact ⟨fun _ => rfl, fun _ => by rw [List.append_nil]⟩

/-- The demonstration mesh: two triangles with a common edge and a separate one. -/
def demoOps : List (Op Nat) := [.addVertex 10, .addVertex 11, .addVertex 12, .addVertex 13, .addVertex 14, .addVertex 15, .addVertex 16,
  .addEdge 0 1, .addEdge 1 2, .addEdge 2 0, .addEdge 1 3, .addEdge 3 2, .addEdge 4 5, .addEdge 5 6, .addEdge 6 4]

def demoMesh : Mesh Nat := (runAll (Mesh.empty 0) demoOps).getD (Mesh.empty 0)

def demoPolys : List (List Nat) := [[0, 2, 4], [3, 6, 8], [10, 12, 14]]

def demoTables : Tables := ⟨[], [], [], [0, 1, 2, 3, 4, 5, 6], fun f => some f, [0, 1, 2, 3, 4, 5, 6], [0, 1, 2], [0, 1, 2, 3, 4, 5, 6], [0, 1, 2], 7, 3⟩

def demoArgs : Args := ⟨0, [1, 2], [0], [true, true, false, false, false, false, true], demoTables, true, true, ⟨true, false, true⟩⟩

theorem demo_reachable : Reachable 0 demoMesh := by
  have : runAll (Mesh.empty 0) demoOps ≠ none := by decide +kernel
  obtain ⟨m, hm⟩ := Option.ne_none_iff_exists'.1 this
  have e : demoMesh = m := by unfold demoMesh; rw [hm]; rfl
  rw [e]; exact runAll_reachable _ _ _ .empty hm

theorem demo_traced : Traced demoMesh demoPolys where
  noFaces := by decide +kernel
  noRemoved := by decide +kernel
  live := by unfold LiveH Live; decide +kernel
  closed := by decide +kernel
  valid := by unfold ValidMesh GoodFace; decide +kernel

theorem demo_edge (h : Nat) (h1 : h < 16) (u v : Nat) (hs : demoMesh.source h = some u) (ht : demoMesh.target h = v) : MeshEdge demoMesh u v := by
  refine ⟨h, ?_, hs, ht⟩
  have e1 : demoMesh.nH = 16 := by decide +kernel
  have e2 : demoMesh.hRem = [] := by decide +kernel
  unfold LiveH Live; rw [e1, e2]; simp [h1]

-- non-vacuity: the extraction succeeds on three triangles, two of which are connected, with four threads
example : Reachable 0 demoMesh ∧ Traced demoMesh demoPolys ∧ extract 0 demoMesh demoPolys demoArgs (some 4) (fun _ => []) ≠ none ∧
    Linked demoMesh demoPolys 0 1 := by
  have hl : ∀ f, f < 3 → ∀ v, v ∈ corners demoMesh demoPolys f → Linked demoMesh demoPolys f f :=
    fun f _ v hv => ⟨v, v, hv, hv, .refl _⟩
  refine ⟨demo_reachable, demo_traced, ?_, ⟨1, 1, by decide +kernel, by decide +kernel, .refl _⟩⟩
  refine C59_no_exception demo_reachable demo_traced demoArgs (some 4) (by intro t h; injection h with h; subst h; decide) (by decide) ?_ ?_ ?_ _
  · intro _; decide +kernel
  · intro _; decide +kernel
  · intro _ _ f hf
    refine ⟨f, hf, ?_, ?_⟩
    · have : ∀ f, f < 3 → ∃ v, v ∈ corners demoMesh demoPolys f := fun f hf => by
        rcases f with _ | _ | _ | f
        · exact ⟨1, by decide +kernel⟩
        · exact ⟨1, by decide +kernel⟩
        · exact ⟨5, by decide +kernel⟩
        · omega
      obtain ⟨v, hv⟩ := this f hf
      exact hl f hf v hv
    · have : ∀ f, f < 3 → f ∈ demoArgs.below ∨ f ∈ demoArgs.above := by decide +kernel
      exact this f hf

end Mcut.Extract
