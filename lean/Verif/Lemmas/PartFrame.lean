import Verif.Model.Partition
import Verif.Lemmas.HmeshRemove

/-! What the mesh operations leave alone, without any precondition. -/
namespace Mcut.Hmesh
variable {P : Type}

/-- Vertices and coordinates are the same. -/
structure SameV (m m' : Mesh P) : Prop where
  nV : m'.nV = m.nV
  vRem : m'.vRem = m.vRem
  pos : m'.pos = m.pos

/-- Face slots are the same. -/
structure SameF (m m' : Mesh P) : Prop where
  nF : m'.nF = m.nF
  fRem : m'.fRem = m.fRem

theorem SameV.refl (m : Mesh P) : SameV m m := ⟨rfl, rfl, rfl⟩
theorem SameF.refl (m : Mesh P) : SameF m m := ⟨rfl, rfl⟩
theorem SameV.trans {a b c : Mesh P} (h : SameV a b) (k : SameV b c) : SameV a c := ⟨k.nV.trans h.nV, k.vRem.trans h.vRem, k.pos.trans h.pos⟩
theorem SameF.trans {a b c : Mesh P} (h : SameF a b) (k : SameF b c) : SameF a c := ⟨k.nF.trans h.nF, k.fRem.trans h.fRem⟩

theorem allocHalfedge_same (m : Mesh P) : SameV m m.allocHalfedge.1 ∧ SameF m m.allocHalfedge.1 := by
  unfold Mesh.allocHalfedge; split <;> exact ⟨⟨rfl, rfl, rfl⟩, ⟨rfl, rfl⟩⟩

theorem allocEdge_same (m : Mesh P) : SameV m m.allocEdge.1 ∧ SameF m m.allocEdge.1 := by
  unfold Mesh.allocEdge; split <;> exact ⟨⟨rfl, rfl, rfl⟩, ⟨rfl, rfl⟩⟩

theorem addEdge_same (m : Mesh P) (a b : Nat) : SameV m (m.addEdge a b).1 ∧ SameF m (m.addEdge a b).1 := by
  have h1 := allocHalfedge_same m
  have h2 := allocHalfedge_same m.allocHalfedge.1
  have h3 := allocEdge_same m.allocHalfedge.1.allocHalfedge.1
  have hv := (h1.1.trans h2.1).trans h3.1
  have hf := (h1.2.trans h2.2).trans h3.2
  unfold Mesh.addEdge
  dsimp only
  constructor
  · refine hv.trans ?_
    split <;> split <;> exact ⟨rfl, rfl, rfl⟩
  · refine hf.trans ?_
    split <;> split <;> exact ⟨rfl, rfl⟩

theorem getOrAdd_same (m : Mesh P) (a b : Nat) : SameV m (m.getOrAdd a b).1 ∧ SameF m (m.getOrAdd a b).1 := by
  unfold Mesh.getOrAdd; split
  · exact ⟨.refl _, .refl _⟩
  · exact addEdge_same m a b

theorem addFaceLoop_same (idx : Nat) : ∀ (L : List (Nat × Nat)) (m : Mesh P) (acc : List Nat),
    SameV m (Mesh.addFaceLoop idx m acc L).1 ∧ SameF m (Mesh.addFaceLoop idx m acc L).1
  | [], m, acc => by simp only [Mesh.addFaceLoop]; exact ⟨.refl _, .refl _⟩
  | (a, b) :: L, m, acc => by
    have g := getOrAdd_same m a b
    simp only [Mesh.addFaceLoop]
    split
    · exact g
    · have r := addFaceLoop_same idx L { (m.getOrAdd a b).1 with hd := upd (m.getOrAdd a b).1.hd (m.getOrAdd a b).2 { (m.getOrAdd a b).1.hd (m.getOrAdd a b).2 with f := some idx } } (acc ++ [(m.getOrAdd a b).2])
      have k : SameV (m.getOrAdd a b).1 { (m.getOrAdd a b).1 with hd := upd (m.getOrAdd a b).1.hd (m.getOrAdd a b).2 { (m.getOrAdd a b).1.hd (m.getOrAdd a b).2 with f := some idx } } := ⟨rfl, rfl, rfl⟩
      have k' : SameF (m.getOrAdd a b).1 { (m.getOrAdd a b).1 with hd := upd (m.getOrAdd a b).1.hd (m.getOrAdd a b).2 { (m.getOrAdd a b).1.hd (m.getOrAdd a b).2 with f := some idx } } := ⟨rfl, rfl⟩
      exact ⟨(g.1.trans k).trans r.1, (g.2.trans k').trans r.2⟩

theorem link_sameV (L : List (Nat × Nat)) : ∀ m : Mesh P, SameV m (L.foldl (fun m p => m.setNext p.1 p.2) m) ∧ SameF m (L.foldl (fun m p => m.setNext p.1 p.2) m) := by
  induction L with
  | nil => intro m; exact ⟨.refl _, .refl _⟩
  | cons x L ih =>
    intro m
    have h : SameV m (m.setNext x.1 x.2) := ⟨rfl, rfl, rfl⟩
    have h' : SameF m (m.setNext x.1 x.2) := ⟨rfl, rfl⟩
    exact ⟨h.trans (ih _).1, h'.trans (ih _).2⟩

/-- `add_face` on a mesh with a removed face reuses the oldest slot. -/
theorem addFace_reuse {m : Mesh P} {idx : Nat} {rest : List Nat} (h : m.fRem = idx :: rest) (vi : List Nat) :
    SameV m (m.addFace vi).1 ∧ (m.addFace vi).1.nF = m.nF ∧ (m.addFace vi).1.fRem = rest ∧ ∀ f, (m.addFace vi).2 = some f → f = idx := by
  have r := addFaceLoop_same idx (cycPairs vi) { m with fRem := rest } []
  have k : SameV m { m with fRem := rest } := ⟨rfl, rfl, rfl⟩
  unfold Mesh.addFace
  rw [h]
  dsimp only
  split
  · have l := link_sameV (cycPairs (Mesh.addFaceLoop idx { m with fRem := rest } [] (cycPairs vi)).2.1)
      { (Mesh.addFaceLoop idx { m with fRem := rest } [] (cycPairs vi)).1 with fh := upd (Mesh.addFaceLoop idx { m with fRem := rest } [] (cycPairs vi)).1.fh idx (Mesh.addFaceLoop idx { m with fRem := rest } [] (cycPairs vi)).2.1 }
    exact ⟨⟨l.1.nV.trans r.1.nV, l.1.vRem.trans r.1.vRem, l.1.pos.trans r.1.pos⟩, l.2.nF.trans r.2.nF, l.2.fRem.trans r.2.fRem, fun f hf => (Option.some.inj hf).symm⟩
  · exact ⟨⟨r.1.nV, r.1.vRem, r.1.pos⟩, r.2.nF, r.2.fRem, fun f hf => by cases hf⟩

/-- `add_face` on a mesh without removed faces appends. -/
theorem addFace_append {m : Mesh P} (h : m.fRem = []) (vi : List Nat) :
    SameV m (m.addFace vi).1 ∧ (m.addFace vi).1.fRem = [] ∧
      ∀ f, (m.addFace vi).2 = some f → f = m.nF ∧ (m.addFace vi).1.nF = m.nF + 1 := by
  have r := addFaceLoop_same m.numFaces (cycPairs vi) m []
  have hn : m.numFaces = m.nF := by simp [Mesh.numFaces, h]
  unfold Mesh.addFace
  rw [h]
  dsimp only
  split
  · have l := link_sameV (cycPairs (Mesh.addFaceLoop m.numFaces m [] (cycPairs vi)).2.1)
      { (Mesh.addFaceLoop m.numFaces m [] (cycPairs vi)).1 with nF := (Mesh.addFaceLoop m.numFaces m [] (cycPairs vi)).1.nF + 1, fh := upd (Mesh.addFaceLoop m.numFaces m [] (cycPairs vi)).1.fh (Mesh.addFaceLoop m.numFaces m [] (cycPairs vi)).1.nF (Mesh.addFaceLoop m.numFaces m [] (cycPairs vi)).2.1 }
    refine ⟨⟨l.1.nV.trans r.1.nV, l.1.vRem.trans r.1.vRem, l.1.pos.trans r.1.pos⟩, l.2.fRem.trans (r.2.fRem.trans h), fun f hf => ⟨?_, ?_⟩⟩
    · rw [← Option.some.inj hf, hn]
    · exact l.2.nF.trans (congrArg (· + 1) r.2.nF)
  · exact ⟨⟨r.1.nV, r.1.vRem, r.1.pos⟩, r.2.fRem.trans h, fun f hf => by cases hf⟩

theorem detachAll_same (l : List Nat) : ∀ m : Mesh P, SameV m (l.foldl Mesh.detach m) ∧ SameF m (l.foldl Mesh.detach m) := by
  induction l with
  | nil => intro m; exact ⟨.refl _, .refl _⟩
  | cons x l ih =>
    intro m
    have h : SameV m (m.detach x) := ⟨rfl, rfl, rfl⟩
    have h' : SameF m (m.detach x) := ⟨rfl, rfl⟩
    exact ⟨h.trans (ih _).1, h'.trans (ih _).2⟩

theorem removeFace_same (m : Mesh P) (f : Nat) : SameV m (m.removeFace f) ∧ (m.removeFace f).nF = m.nF ∧ (m.removeFace f).fRem = m.fRem ++ [f] := by
  have h := detachAll_same (m.fh f) m
  unfold Mesh.removeFace
  exact ⟨⟨h.1.nV, h.1.vRem, h.1.pos⟩, h.2.nF, congrArg (· ++ [f]) h.2.fRem⟩

theorem removeEdge_same (m : Mesh P) (e : Nat) : SameV m (m.removeEdge e) ∧ SameF m (m.removeEdge e) := by
  unfold Mesh.removeEdge
  split
  · exact ⟨.refl _, .refl _⟩
  · exact ⟨⟨rfl, rfl, rfl⟩, ⟨rfl, rfl⟩⟩

end Mcut.Hmesh

namespace Mcut.Partition
open Mcut.Hmesh
variable {P : Type}

theorem retrace_same {m m' : Mesh P} {n : Nat} {hs : List Nat} (h : m.fRem = []) (hr : retrace m n hs = some m') : SameV m m' ∧ SameF m m' := by
  unfold retrace at hr
  dsimp only at hr
  have r := removeFace_same m n
  have hf : (m.removeFace n).fRem = n :: [] := by rw [r.2.2, h]; rfl
  have a := addFace_reuse hf (hs.map (m.removeFace n).target)
  split at hr
  · cases hr
    exact ⟨r.1.trans a.1, ⟨a.2.1.trans r.2.1, a.2.2.1.trans h.symm⟩⟩
  · cases hr

theorem retraceAll_same {sub : List Nat → List Nat} : ∀ (l : List (Nat × List Nat)) {m m' : Mesh P}, m.fRem = [] → retraceAll sub m l = some m' →
    SameV m m' ∧ SameF m m'
  | [], m, m', _, hr => by cases hr; exact ⟨.refl _, .refl _⟩
  | (n, old) :: l, m, m', h, hr => by
    simp only [retraceAll] at hr
    split at hr
    · cases hr
    · next m1 h1 =>
      have a := retrace_same h h1
      have b := retraceAll_same l (a.2.fRem.trans h) hr
      exact ⟨a.1.trans b.1, a.2.trans b.2⟩

theorem prepare_edges (m : Mesh P) (s0 t0 s1 t1 : Nat) (p0 p1 : P) :
    SameV ((m.addVertex p0).1.addVertex p1).1 (prepare m s0 t0 s1 t1 p0 p1).mesh ∧ SameF ((m.addVertex p0).1.addVertex p1).1 (prepare m s0 t0 s1 t1 p0 p1).mesh ∧
      (prepare m s0 t0 s1 t1 p0 p1).x0 = (m.addVertex p0).2 ∧ (prepare m s0 t0 s1 t1 p0 p1).x1 = ((m.addVertex p0).1.addVertex p1).2 := by
  unfold prepare
  generalize m.addVertex p0 = v0
  obtain ⟨m0, x0⟩ := v0
  dsimp only
  generalize m0.addVertex p1 = v1
  obtain ⟨m1, x1⟩ := v1
  dsimp only
  have e1 := addEdge_same m1 x0 x1
  generalize m1.addEdge x0 x1 = a at e1 ⊢
  have e2 := addEdge_same a.1 s0 x0
  generalize a.1.addEdge s0 x0 = b at e2 ⊢
  have e3 := addEdge_same b.1 x0 t0
  generalize b.1.addEdge x0 t0 = c at e3 ⊢
  have e4 := addEdge_same c.1 s1 x1
  generalize c.1.addEdge s1 x1 = d at e4 ⊢
  have e5 := addEdge_same d.1 x1 t1
  exact ⟨(((e1.1.trans e2.1).trans e3.1).trans e4.1).trans e5.1, (((e1.2.trans e2.2).trans e3.2).trans e4.2).trans e5.2, rfl, rfl⟩

theorem addVertex_nil {m : Mesh P} (hv : m.vRem = []) (p : P) :
    m.addVertex p = ({ m with nV := m.nV + 1, vh := upd m.vh m.nV [], pos := upd m.pos m.nV p }, m.nV) := by
  unfold Mesh.addVertex; rw [hv]; simp [Mesh.numVertices, hv]

theorem prepare_same (m : Mesh P) (hv : m.vRem = []) (s0 t0 s1 t1 : Nat) (p0 p1 : P) :
    (prepare m s0 t0 s1 t1 p0 p1).x0 = m.nV ∧ (prepare m s0 t0 s1 t1 p0 p1).x1 = m.nV + 1 ∧ (prepare m s0 t0 s1 t1 p0 p1).mesh.nV = m.nV + 2 ∧
      (prepare m s0 t0 s1 t1 p0 p1).mesh.vRem = [] ∧ SameF m (prepare m s0 t0 s1 t1 p0 p1).mesh ∧
      (∀ v, v < m.nV → (prepare m s0 t0 s1 t1 p0 p1).mesh.pos v = m.pos v) ∧
      (prepare m s0 t0 s1 t1 p0 p1).mesh.pos (prepare m s0 t0 s1 t1 p0 p1).x0 = p0 ∧
      (prepare m s0 t0 s1 t1 p0 p1).mesh.pos (prepare m s0 t0 s1 t1 p0 p1).x1 = p1 := by
  obtain ⟨V, F, x0, x1⟩ := prepare_edges m s0 t0 s1 t1 p0 p1
  generalize prepare m s0 t0 s1 t1 p0 p1 = q at V F x0 x1 ⊢
  rw [addVertex_nil hv] at V F x0 x1
  rw [addVertex_nil (by exact hv)] at V F x1
  dsimp only at x0 x1
  refine ⟨x0, x1, V.nV, V.vRem.trans hv, ⟨F.nF, F.fRem⟩, ?_, ?_, ?_⟩
  · intro v h; rw [V.pos]; simp only; rw [upd_other _ _ _ _ (by omega), upd_other _ _ _ _ (by omega)]
  · rw [V.pos, x0]; simp only; rw [upd_other _ _ _ _ (by omega), upd_same]
  · rw [V.pos, x1]; simp only; rw [upd_same]

theorem addChild_add {m m' : Mesh P} {bnd : List Nat} {g c : Nat} (h : addChild m bnd g = some (m', c)) :
    ∃ vi, m' = (m.addFace vi).1 ∧ (m.addFace vi).2 = some c := by
  unfold addChild at h
  split at h
  · cases h
  · split at h
    · cases h
    · next l _ =>
      split at h
      · cases h
      · split at h
        · next m'' f heq => cases h; exact ⟨l.map m.target, by rw [heq], by rw [heq]⟩
        · cases h

/-- What one partition does to slots and coordinates. -/
structure SplitSlots (m : Mesh P) (s : Split P) (r : SplitResult P) : Prop where
  x0 : r.x0 = m.nV
  x1 : r.x1 = m.nV + 1
  nV : r.mesh.nV = m.nV + 2
  vRem : r.mesh.vRem = []
  nF : r.mesh.nF = m.nF + 1
  fRem : r.mesh.fRem = []
  child0 : r.child0 = s.face
  child1 : r.child1 = m.nF
  old : ∀ v, v < m.nV → r.mesh.pos v = m.pos v
  p0 : r.mesh.pos r.x0 = s.p0
  p1 : r.mesh.pos r.x1 = s.p1

theorem splitFace_slots {m : Mesh P} {s : Split P} {r : SplitResult P} (hv : m.vRem = []) (hf : m.fRem = []) (hr : splitFace m s = some r) :
    SplitSlots m s r := by
  unfold splitFace at hr
  split at hr
  case h_2 => cases hr
  next h0 h1 _ _ =>
  split at hr
  case h_2 => cases hr
  next s0 s1 _ _ =>
  have q := prepare_same m hv s0 (m.target h0) s1 (m.target h1) s.p0 s.p1
  dsimp only at hr q
  generalize prepare m s0 (m.target h0) s1 (m.target h1) s.p0 s.p1 = Q at hr q
  obtain ⟨qx0, qx1, qn, qr, qf, qo, qp0, qp1⟩ := q
  split at hr
  case h_1 => cases hr
  next m1 hm1 =>
  have a := retraceAll_same _ (qf.fRem.trans hf) hm1
  have b := removeFace_same m1 s.face
  split at hr
  case h_1 => cases hr
  next m3 c0 hm3 =>
  obtain ⟨vi, rfl, hc0⟩ := addChild_add hm3
  have hrem : (m1.removeFace s.face).fRem = s.face :: [] := by rw [b.2.2, a.2.fRem, qf.fRem, hf]; rfl
  have c := addFace_reuse hrem vi
  split at hr
  case isTrue => cases hr
  next hcf =>
  split at hr
  case h_1 => cases hr
  next m4 c1 hm4 =>
  obtain ⟨vj, rfl, hc1⟩ := addChild_add hm4
  have d := addFace_append c.2.2.1 vj
  cases hr
  have e0 := removeEdge_same (((m1.removeFace s.face).addFace vi).1.addFace vj).1 (edgeOf h0)
  have e1 := removeEdge_same ((((m1.removeFace s.face).addFace vi).1.addFace vj).1.removeEdge (edgeOf h0)) (edgeOf h1)
  have V := ((((a.1.trans b.1).trans c.1).trans d.1).trans e0.1).trans e1.1
  obtain ⟨d1, d2⟩ := d.2.2 _ hc1
  exact {
    x0 := qx0
    x1 := qx1
    nV := V.nV.trans qn
    vRem := V.vRem.trans qr
    nF := by rw [e1.2.nF, e0.2.nF, d2, c.2.1, b.2.1, a.2.nF, qf.nF]
    fRem := by rw [e1.2.fRem, e0.2.fRem, d.2.1]
    child0 := by simpa using hcf
    child1 := by show c1 = _; rw [d1, c.2.1, b.2.1, a.2.nF, qf.nF]
    old := fun v h => by show (Mesh.pos _ v) = _; rw [V.pos]; exact qo v h
    p0 := by show Mesh.pos _ _ = _; rw [V.pos]; exact qp0
    p1 := by show Mesh.pos _ _ = _; rw [V.pos]; exact qp1 }

end Mcut.Partition
