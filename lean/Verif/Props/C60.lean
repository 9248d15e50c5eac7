import Verif.Lemmas.C60
import Verif.Props.C59

/-! # C60: the merged mesh and the origin of every output vertex -/
namespace Mcut.Extract
open Mcut.Hmesh Mcut.Preproc Mcut.Sched
variable {P : Type} {d : P} {sm cs : Mesh P}

/-- **C60 (merged mesh).** For every source mesh and every valid cut mesh, without or with any number of threads: the merged mesh is a copy of both meshes, and its
tables name, for each vertex and face, the vertex and face of the mesh it comes from. -/
theorem C60_soup (junk : Nat) (I : Intact d sm) (J : Intact d cs) (hv : ValidMesh cs.numVertices (polygons cs)) (threads : Option Nat) (hs : Sizes sm cs threads) :
    ∃ S, soup junk sm cs threads = some S ∧ MergeOf d sm cs S.ps ∧
      (∀ v, v < sm.numVertices → S.psSm[v]? = some v) ∧ (∀ v, v < cs.numVertices → S.psCm[sm.numVertices + v]? = some v) ∧
      (∀ f, f < sm.numFaces → S.psSmF[f]? = some f) ∧ (∀ f, f < cs.numFaces → S.psCmF[sm.numFaces + f]? = some f) := by
  rw [J.numV] at hv
  unfold soup
  rw [parOrder_ok sm.numVertices threads (fun t h => ⟨(hs t h).1, (hs t h).2.1⟩), parOrder_ok sm.numFaces threads (fun t h => ⟨(hs t h).1, (hs t h).2.2.1⟩),
    parOrder_ok cs.numFaces threads (fun t h => ⟨(hs t h).1, (hs t h).2.2.2⟩)]
  simp only [Option.bind_some]
  obtain ⟨h1, h2, h3⟩ := mergeVertices_spec I J (List.replicate (sm.numVertices + cs.numVertices) junk) (by simp [I.numV, J.numV])
  obtain ⟨ps, tab, e, B, h4, h5⟩ := mergeFaces_spec J hv h1 (List.replicate (sm.numFaces + cs.numFaces) junk) (by simp [I.numF, J.numF])
  rw [I.numV, J.numF, I.numF, J.numV] at *
  rw [e]
  have Ips : Intact d ps := ⟨B.reach, B.vRem, B.fRem⟩
  have hlen : ((polygons cs).map (fun f => f.map (fun v => v + sm.nV))).length = cs.nF := by simp [polygons, J.numF]
  refine ⟨_, rfl, ⟨Ips, ?_, ?_, ?_, ?_, ?_⟩, ?_, ?_, ?_, ?_⟩
  · show ps.numVertices = _
    rw [Ips.numV, I.numV, J.numV, B.nV]
  · show ps.numFaces = _
    rw [Ips.numF, I.numF, J.numF, B.nF, hlen]
  · intro v hv'
    change v < ps.numVertices at hv'
    rw [Ips.numV, B.nV] at hv'
    unfold clientPos
    rw [I.numV]
    by_cases h : v < sm.nV
    · rw [if_pos h]; exact B.pos1 v h
    · rw [if_neg h]
      have := B.pos2 (v - sm.nV) (by omega)
      rw [show sm.nV + (v - sm.nV) = v by omega] at this
      exact this
  · intro f hf
    rw [I.numF] at hf
    exact (B.old f hf).2
  · intro f hf
    rw [J.numF] at hf
    have := B.tgts f ((cs.verticesAroundFace f).map (fun v => v + sm.nV)) (by simp [polygons, J.numF, hf])
    rw [I.numF, I.numV]
    refine (List.IsRotated.symm ⟨1, ?_⟩)
    rw [← this]; rfl
  · intro v hv'
    show (writeAll id _ _)[v]? = _
    rw [writeAll_getElem? _ _ _ _ (by simp; omega), if_pos (List.mem_range.2 hv')]; rfl
  · intro v hv'; exact h3 v hv'
  · intro f hf
    show (writeAll id _ _)[f]? = _
    rw [writeAll_getElem? _ _ _ _ (by simp; omega), if_pos (List.mem_range.2 hf)]; rfl
  · intro f hf; exact h5 f hf

/-- An empty mesh is a division by zero in the versions with a thread pool. -/
theorem C60_empty_fails (junk t : Nat) (h : sm.numVertices = 0 ∨ sm.numFaces = 0 ∨ cs.numFaces = 0) : soup junk sm cs (some t) = none := by
  have e : parOrder 0 (some t) = none := by
    have := C17_empty_range_fails t 1024 (by omega) (by omega)
    unfold parOrder
    simp only [this]
  unfold soup
  rcases h with h | h | h
  · rw [h, e]; rfl
  · rw [h, e]; cases parOrder sm.numVertices (some t) <;> rfl
  · rw [h, e]; cases parOrder sm.numVertices (some t) <;> cases parOrder sm.numFaces (some t) <;> rfl

theorem copyVertices_spec {ps : Mesh P} (I : Intact d ps) :
    Intact d (copyVertices d ps).1 ∧ (copyVertices d ps).1.numVertices = ps.numVertices ∧ (copyVertices d ps).1.numFaces = 0 ∧
    (∀ v, v < ps.numVertices → (copyVertices d ps).1.pos v = ps.pos v) ∧ (copyVertices d ps).2 = List.range ps.numVertices := by
  rw [I.numV]
  unfold copyVertices
  rw [I.noRemoved.1, enum_nil]
  have key : ∀ n, let s := (List.range n).foldl (fun (s : Mesh P × List Nat) i => ((s.1.addVertex (ps.pos i)).1, s.2 ++ [i])) (Mesh.empty d, [])
      Reachable d s.1 ∧ s.1.vRem = [] ∧ s.1.fRem = [] ∧ s.1.nV = n ∧ s.1.nF = 0 ∧ (∀ v, v < n → s.1.pos v = ps.pos v) ∧ s.2 = List.range n := by
    intro n
    induction n with
    | zero => exact ⟨.empty, rfl, rfl, rfl, rfl, fun v hv => by omega, rfl⟩
    | succ n ih =>
      simp only [List.range_succ, List.foldl_append, List.foldl_cons, List.foldl_nil] at ih ⊢
      obtain ⟨h1, h2, h3, h4, h5, h6, h7⟩ := ih
      generalize (List.range n).foldl (fun (s : Mesh P × List Nat) i => ((s.1.addVertex (ps.pos i)).1, s.2 ++ [i])) (Mesh.empty d, []) = s at *
      have hr : Reachable d (s.1.addVertex (ps.pos n)).1 := .step s.1 (.addVertex _) h1 trivial
      have e : s.1.addVertex (ps.pos n) = ({ s.1 with nV := s.1.nV + 1, vh := upd s.1.vh s.1.nV [], pos := upd s.1.pos s.1.nV (ps.pos n) }, s.1.nV) := by
        simp [Mesh.addVertex, h2, Mesh.numVertices]
      rw [e] at hr ⊢
      refine ⟨hr, h2, h3, by simp [h4], h5, fun v hv => ?_, by rw [h7]⟩
      show upd s.1.pos s.1.nV (ps.pos n) v = _
      by_cases hvn : v = n
      · subst hvn; rw [h4, upd_same]
      · rw [upd_other _ _ _ _ (by omega)]; exact h6 v (by omega)
  obtain ⟨h1, h2, h3, h4, h5, h6, h7⟩ := key ps.nV
  exact ⟨⟨h1, h2, h3⟩, by simp [Mesh.numVertices, h2, h4], by simp [Mesh.numFaces, h3, h5], h6, h7⟩

/-- **C60 (first auxiliary mesh).** "m0" starts with exactly the vertices of both meshes, and its table is the identity. -/
theorem C60_m0 {ps : Mesh P} (M : MergeOf d sm cs ps) :
    (copyVertices d ps).1.numVertices = sm.numVertices + cs.numVertices ∧ (copyVertices d ps).1.numFaces = 0 ∧
    (∀ v, v < sm.numVertices + cs.numVertices → (copyVertices d ps).1.pos v = clientPos sm cs v) ∧
    (∀ v : Nat, (copyVertices d ps).2[v]? = if v < sm.numVertices + cs.numVertices then some v else none) := by
  obtain ⟨-, h1, h2, h3, h4⟩ := copyVertices_spec M.intact
  refine ⟨by rw [h1, M.numV], h2, fun v hv => ?_, fun v => ?_⟩
  · rw [h3 v (by rw [M.numV]; exact hv)]; exact M.pos v (by rw [M.numV]; exact hv)
  · rw [h4, M.numV]; split <;> simp_all

/-- **C60 (origins, first auxiliary mesh).** In the calls that extract from "m0", the origin of an original vertex is the vertex itself (numbered as the client
sees both meshes), and all other vertices (intersection points) have none. -/
theorem C60_origin_m0 (junk : Nat) (I : Intact d sm) (J : Intact d cs) (hv : ValidMesh cs.numVertices (polygons cs)) (threads : Option Nat)
    (hs : Sizes sm cs threads) (S : Soup P) (hS : soup junk sm cs threads = some S) (m0face : Nat → Option Nat) (v : Nat) :
    vertexOrigin (S.tablesM0 sm (copyVertices d S.ps).2 m0face) v = some (if v < sm.numVertices + cs.numVertices then some v else none) := by
  obtain ⟨S', hS', M, t1, t2, -, -⟩ := C60_soup junk I J hv threads hs
  rw [hS] at hS'; injection hS' with hS'; subst hS'
  obtain ⟨-, -, -, hm⟩ := C60_m0 M
  have hl : (copyVertices d S.ps).2.length = sm.numVertices + cs.numVertices := by
    rw [(copyVertices_spec M.intact).2.2.2.2, List.length_range, M.numV]
  unfold vertexOrigin toM0 Soup.tablesM0
  simp only [List.length_nil, Nat.not_lt_zero, if_false, List.isEmpty_nil, if_true, Option.getD_none, hl]
  by_cases h : v < sm.numVertices + cs.numVertices
  · rw [if_pos h, if_pos h, hm v, if_pos h]
    simp only [Option.bind_some]
    by_cases h' : v ≥ sm.numVertices
    · rw [if_pos h']
      have := t2 (v - sm.numVertices) (by omega)
      rw [show sm.numVertices + (v - sm.numVertices) = v by omega] at this
      rw [this]; simp; omega
    · rw [if_neg h', t1 v (by omega)]; rfl
  · rw [if_neg h, if_neg h]

theorem copyM0_spec {m0 : Mesh P} (junk : Nat) (I : Intact d m0) :
    Intact d (copyM0 d junk m0).1 ∧ (copyM0 d junk m0).1.numVertices = m0.numVertices ∧
    (∀ v, v < m0.numVertices → (copyM0 d junk m0).1.pos v = m0.pos v) ∧ (copyM0 d junk m0).2 = List.range m0.numVertices := by
  rw [I.numV]
  unfold copyM0
  rw [I.noRemoved.1, enum_nil, I.numV]
  have key : ∀ n, n ≤ m0.nV → let s := (List.range n).foldl (fun (s : Mesh P × List Nat) i => ((s.1.addVertex (m0.pos i)).1, s.2.set (s.1.addVertex (m0.pos i)).2 i)) (Mesh.empty d, List.replicate m0.nV junk)
      Reachable d s.1 ∧ s.1.vRem = [] ∧ s.1.fRem = [] ∧ s.1.nV = n ∧ (∀ v, v < n → s.1.pos v = m0.pos v) ∧ s.2.length = m0.nV ∧
        ∀ v, v < n → s.2[v]? = some v := by
    intro n
    induction n with
    | zero => intro _; exact ⟨.empty, rfl, rfl, rfl, fun v hv => by omega, by simp, fun v hv => by omega⟩
    | succ n ih =>
      intro hn
      have ih := ih (by omega)
      simp only [List.range_succ, List.foldl_append, List.foldl_cons, List.foldl_nil] at ih ⊢
      obtain ⟨h1, h2, h3, h4, h6, h7, h8⟩ := ih
      generalize (List.range n).foldl (fun (s : Mesh P × List Nat) i => ((s.1.addVertex (m0.pos i)).1, s.2.set (s.1.addVertex (m0.pos i)).2 i))
        (Mesh.empty d, List.replicate m0.nV junk) = s at *
      have hr : Reachable d (s.1.addVertex (m0.pos n)).1 := .step s.1 (.addVertex _) h1 trivial
      have e : s.1.addVertex (m0.pos n) = ({ s.1 with nV := s.1.nV + 1, vh := upd s.1.vh s.1.nV [], pos := upd s.1.pos s.1.nV (m0.pos n) }, s.1.nV) := by
        simp [Mesh.addVertex, h2, Mesh.numVertices]
      rw [e] at hr ⊢
      refine ⟨hr, h2, h3, by simp [h4], fun v hv => ?_, by simp [h7], fun v hv => ?_⟩
      · show upd s.1.pos s.1.nV (m0.pos n) v = _
        by_cases hvn : v = n
        · subst hvn; rw [h4, upd_same]
        · rw [upd_other _ _ _ _ (by omega)]; exact h6 v (by omega)
      · show (s.2.set s.1.nV n)[v]? = _
        rw [h4, List.getElem?_set]
        by_cases hvn : v = n
        · subst hvn; simp [h7]; omega
        · rw [if_neg (by omega)]; exact h8 v (by omega)
  obtain ⟨h1, h2, h3, h4, h6, h7, h8⟩ := key m0.nV (Nat.le_refl _)
  refine ⟨⟨h1, h2, h3⟩, by simp [Mesh.numVertices, h2, h4], h6, List.ext_getElem? (fun v => ?_)⟩
  by_cases hv : v < m0.nV
  · rw [h8 v hv]; simp [hv]
  · rw [List.getElem?_eq_none (by omega), List.getElem?_eq_none (by simp; omega)]

/-- **C60 (origins, second auxiliary mesh).** In the calls that extract from "m1" the same holds for its first vertices, which are those of "m0"; a later vertex has
an origin exactly if the stitching registered one. -/
theorem C60_origin_m1 (junk : Nat) (I : Intact d sm) (J : Intact d cs) (hv : ValidMesh cs.numVertices (polygons cs)) (threads : Option Nat)
    (hs : Sizes sm cs threads) (S : Soup P) (hS : soup junk sm cs threads = some S) (m0 : Mesh P) (I0 : Intact d m0)
    (h0 : sm.numVertices + cs.numVertices ≤ m0.numVertices) (cm fc : List (Nat × Nat))
    (hcm : ∀ q ∈ cm, q.2 < sm.numVertices + cs.numVertices) (m0face : Nat → Option Nat) (v : Nat) :
    vertexOrigin (S.tablesM1 sm (copyM0 d junk m0).2 cm fc (copyVertices d S.ps).2 m0face) v =
      some (if v < m0.numVertices then (if v < sm.numVertices + cs.numVertices then some v else none)
        else (cm.find? (fun q => q.1 == v)).map Prod.snd) := by
  obtain ⟨S', hS', M, t1, t2, -, -⟩ := C60_soup junk I J hv threads hs
  rw [hS] at hS'; injection hS' with hS'; subst hS'
  obtain ⟨-, -, -, hm⟩ := C60_m0 M
  have hl : (copyVertices d S.ps).2.length = sm.numVertices + cs.numVertices := by
    rw [(copyVertices_spec M.intact).2.2.2.2, List.length_range, M.numV]
  have hc := (copyM0_spec junk I0).2.2.2
  have main : ∀ w, (if w < (copyVertices d S.ps).2.length then
      ((copyVertices d S.ps).2[w]?).bind (fun ps => if ps ≥ sm.numVertices then (S.psCm[ps]?).map (fun x => some (x + sm.numVertices)) else (S.psSm[ps]?).map some)
      else some none) = some (if w < sm.numVertices + cs.numVertices then some w else none) := by
    intro w
    rw [hl]
    by_cases h : w < sm.numVertices + cs.numVertices
    · rw [if_pos h, if_pos h, hm w, if_pos h]
      simp only [Option.bind_some]
      by_cases h' : w ≥ sm.numVertices
      · rw [if_pos h']
        have := t2 (w - sm.numVertices) (by omega)
        rw [show sm.numVertices + (w - sm.numVertices) = w by omega] at this
        rw [this]; simp; omega
      · rw [if_neg h', t1 w (by omega)]; rfl
    · rw [if_neg h, if_neg h]
  have hto : toM0 (S.tablesM1 sm (copyM0 d junk m0).2 cm fc (copyVertices d S.ps).2 m0face) v =
      if v < m0.numVertices then v else ((cm.find? (fun q => q.1 == v)).map Prod.snd).getD v := by
    unfold toM0 Soup.tablesM1
    simp only [hc, List.length_map, List.length_range]
    by_cases h : v < m0.numVertices
    · simp [h]
    · rw [if_neg h, if_neg h]
      cases cm with
      | nil => simp
      | cons a l => simp
  have hu : vertexOrigin (S.tablesM1 sm (copyM0 d junk m0).2 cm fc (copyVertices d S.ps).2 m0face) v = _ := main _
  rw [hu, hto]
  by_cases h : v < m0.numVertices
  · rw [if_pos h, if_pos h]
  · rw [if_neg h, if_neg h]
    cases hf : cm.find? (fun q => q.1 == v) with
    | none => simp; omega
    | some q =>
      have := hcm q (List.mem_of_find?_eq_some hf)
      simp [this]

/-- **C60 (origins of output vertices).** Every mesh extracted from "m0": an origin in its vertex map is a vertex of the two input meshes with the same
position, and a vertex without origin is a copy of a vertex that was added to "m0" later. -/
theorem C60_output_m0 (junk : Nat) (I : Intact d sm) (J : Intact d cs) (hv : ValidMesh cs.numVertices (polygons cs)) (threads : Option Nat)
    (hs : Sizes sm cs threads) (S : Soup P) (hS : soup junk sm cs threads = some S) (m0face : Nat → Option Nat)
    (m0 : Mesh P) (hr : Reachable d m0) (hpos : ∀ v, v < sm.numVertices + cs.numVertices → m0.pos v = (copyVertices d S.ps).1.pos v)
    (polys : List (List Nat)) (T : Traced m0 polys) (a : Args) (hT : a.tables = S.tablesM0 sm (copyVertices d S.ps).2 m0face) (hp : a.popV = true)
    (hth : ∀ t, threads = some t → 0 < t ∧ polys.length + 1024 ≤ 2 ^ 32) (mesh : Mesh P) (out : Store P)
    (h : extract d m0 polys a threads (fun _ => []) = some (mesh, out)) (k : Nat) (c : Mesh P × Info) (hc : c ∈ out k) :
    c.2.vmap.length = c.1.numVertices ∧
    (∀ i o : Nat, c.2.vmap[i]? = some (some o) → o < sm.numVertices + cs.numVertices ∧ c.1.pos i = clientPos sm cs o) ∧
    (∀ i : Nat, c.2.vmap[i]? = some none → ∃ v, sm.numVertices + cs.numVertices ≤ v ∧ c.1.pos i = m0.pos v) := by
  obtain ⟨vs, fs, -, -, -, h4⟩ := C59_components hr T a threads hth mesh out h
  obtain ⟨-, C, -, -, -, hmap, -⟩ := h4 k c hc
  obtain ⟨h5, h6⟩ := hmap hp
  obtain ⟨S', hS', M, -, -, -, -⟩ := C60_soup junk I J hv threads hs
  rw [hS] at hS'; injection hS' with hS'; subst hS'
  obtain ⟨-, -, hm, -⟩ := C60_m0 M
  have key : ∀ (i : Nat) (x : Option Nat), c.2.vmap[i]? = some x → ∃ v, (vs k)[i]? = some v ∧ c.1.pos i = m0.pos v ∧
      x = if v < sm.numVertices + cs.numVertices then some v else none := by
    intro i x hx
    have hi : i < (vs k).length := by rw [← h5]; exact (List.getElem?_eq_some_iff.1 hx).1
    have hvi : (vs k)[i]? = some (vs k)[i] := List.getElem?_eq_getElem hi
    refine ⟨(vs k)[i], hvi, C.pos i _ hvi, ?_⟩
    have := h6 i _ hvi
    rw [hT, C60_origin_m0 junk I J hv threads hs S hS m0face, hx] at this
    injection this with this
    exact this.symm
  refine ⟨by rw [C.numV, h5], fun i o ho => ?_, fun i ho => ?_⟩
  · obtain ⟨v, -, e1, e2⟩ := key i _ ho
    by_cases hlt : v < sm.numVertices + cs.numVertices
    · rw [if_pos hlt] at e2; injection e2 with e2; subst e2
      exact ⟨hlt, by rw [e1, hpos o hlt, hm o hlt]⟩
    · rw [if_neg hlt] at e2; cases e2
  · obtain ⟨v, -, e1, e2⟩ := key i _ ho
    refine ⟨v, ?_, e1⟩
    by_contra hlt
    rw [if_pos (by omega)] at e2; cases e2

/-- **C60 (origins of output faces).** In the calls that extract from "m0", the origin of a polygon is the face of the merged mesh in which it was traced. -/
theorem C60_face_origin (junk : Nat) (I : Intact d sm) (J : Intact d cs) (hv : ValidMesh cs.numVertices (polygons cs)) (threads : Option Nat)
    (hs : Sizes sm cs threads) (S : Soup P) (hS : soup junk sm cs threads = some S) (m0ps : List Nat) (m0face : Nat → Option Nat) (offset f g : Nat)
    (hf : m0face (offset + f) = some g) (hg : g < sm.numFaces + cs.numFaces) :
    faceOrigin (S.tablesM0 sm m0ps m0face) offset f = some g := by
  obtain ⟨S', hS', M, -, -, t3, t4⟩ := C60_soup junk I J hv threads hs
  rw [hS] at hS'; injection hS' with hS'; subst hS'
  unfold faceOrigin Soup.tablesM0
  simp only [List.length_nil, gt_iff_lt, Nat.lt_irrefl, if_false, Option.bind_some, hf]
  by_cases h : g ≥ sm.numFaces
  · rw [if_pos h]
    have := t4 (g - sm.numFaces) (by omega)
    rw [show sm.numFaces + (g - sm.numFaces) = g by omega] at this
    rw [this]; simp; omega
  · rw [if_neg h]; exact t3 g (by omega)

/-- Two meshes of one triangle each. -/
def triA : Mesh Nat := (runAll (Mesh.empty 0) [.addVertex 10, .addVertex 11, .addVertex 12, .addFace [0, 1, 2]]).getD (Mesh.empty 0)
def triB : Mesh Nat := (runAll (Mesh.empty 0) [.addVertex 20, .addVertex 21, .addVertex 22, .addVertex 23, .addFace [0, 1, 2], .addFace [0, 2, 3]]).getD (Mesh.empty 0)

theorem triA_intact : Intact 0 triA := by
  have : runAll (Mesh.empty 0) [.addVertex 10, .addVertex 11, .addVertex 12, .addFace [0, 1, 2]] ≠ none := by decide +kernel
  obtain ⟨m, hm⟩ := Option.ne_none_iff_exists'.1 this
  have e : triA = m := by unfold triA; rw [hm]; rfl
  exact ⟨by rw [e]; exact runAll_reachable _ _ _ .empty hm, by decide +kernel⟩

theorem triB_intact : Intact 0 triB := by
  have : runAll (Mesh.empty 0) [.addVertex 20, .addVertex 21, .addVertex 22, .addVertex 23, .addFace [0, 1, 2], .addFace [0, 2, 3]] ≠ none := by decide +kernel
  obtain ⟨m, hm⟩ := Option.ne_none_iff_exists'.1 this
  have e : triB = m := by unfold triB; rw [hm]; rfl
  exact ⟨by rw [e]; exact runAll_reachable _ _ _ .empty hm, by decide +kernel⟩

theorem triB_valid : ValidMesh triB.numVertices (polygons triB) := by unfold ValidMesh GoodFace; decide +kernel

-- non-vacuity: a source triangle and a cut mesh of two triangles, with 4 threads
example : Intact 0 triA ∧ Intact 0 triB ∧ ValidMesh triB.numVertices (polygons triB) ∧ Sizes triA triB (some 4) ∧
    (soup 99 triA triB (some 4)).map (fun S => (polygons S.ps, S.psSm, S.psCm, S.psSmF, S.psCmF)) =
      some ([[1, 2, 0], [5, 3, 4], [6, 3, 5]], [0, 1, 2, 99, 99, 99, 99], [99, 99, 99, 0, 1, 2, 3], [0, 99, 99], [99, 0, 1]) :=
  ⟨triA_intact, triB_intact, triB_valid, by intro t h; injection h with h; subst h; decide +kernel, by decide +kernel⟩

end Mcut.Extract
