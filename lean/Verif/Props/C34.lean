import Verif.Lemmas.C34
/-! # C34: connected components of input meshes -/
namespace Mcut.Preproc
open Mcut.Hmesh
variable {P : Type}

theorem C34_ci {d : P} {m : Mesh P} (h : Reachable d m) (hv : m.vRem = []) :
    CI (neighbours m) m.numVertices (findComponents m).comp (findComponents m).num ∧ ∀ v, v < m.numVertices → (findComponents m).comp v ≠ none := by
  have W := reachable_wf h
  have hn : m.numVertices = m.nV := by simp [Mesh.numVertices, hv]
  have hen : enumerateFrom m.vRem m.nV 0 = List.range m.nV := by
    rw [enum_live, hv]; simp [liveList]
  obtain ⟨r1, r2, -⟩ := find_spec m (mesh_graph W hv) (enumerateFrom m.vRem m.nV 0) ⟨fun _ => none, fun _ => false, 0⟩
    (by rw [hen, hn]; intro u hu; exact List.mem_range.1 hu) ⟨by simp, by simp, by simp, by simp⟩
  refine ⟨r1, fun v hv' => r2 v ?_⟩
  rw [hen]; exact List.mem_range.2 (by omega)

/-- **C34 (components).** In every mesh built by a history of operations without vertex removals, the connectivity check gives each vertex a component id
below the number of components; two vertices get the same id exactly when a path of edges connects them; and every id is used. So the number that it returns
is the number of connected components. -/
theorem C34_components {d : P} {m : Mesh P} (h : Reachable d m) (hv : m.vRem = []) :
    (∀ v, v < m.numVertices → ∃ i, i < (findComponents m).num ∧ (findComponents m).comp v = some i) ∧
    (∀ u v, u < m.numVertices → v < m.numVertices → ((findComponents m).comp u = (findComponents m).comp v ↔ Connected m u v)) ∧
    (∀ i, i < (findComponents m).num → ∃ v, v < m.numVertices ∧ (findComponents m).comp v = some i) := by
  have W := reachable_wf h
  have G := mesh_graph W hv
  obtain ⟨C, A⟩ := C34_ci h hv
  have hlt : ∀ v w, w ∈ neighbours m v → v < m.numVertices ∧ w < m.numVertices := by
    have hn : m.numVertices = m.nV := by simp [Mesh.numVertices, hv]
    intro v w hw
    have hv' : v < m.numVertices := by
      obtain ⟨x, hl, hs, ht⟩ := (mem_neighbours W v w).1 hw
      have := (W.half x hl).2.2.1
      have ht' : (m.hd x).t = v := ht
      rw [ht'] at this
      rw [hn]; exact this.1
    exact ⟨hv', G.lt v hv' w hw⟩
  refine ⟨?_, ?_, ?_⟩
  · intro v hv'
    obtain ⟨i, hi⟩ := Option.ne_none_iff_exists'.1 (A v hv')
    exact ⟨i, (C.ids v i hi).1, hi⟩
  · intro u v hu hv'
    rw [← path_iff W]
    constructor
    · intro he
      obtain ⟨i, hi⟩ := Option.ne_none_iff_exists'.1 (A u hu)
      exact C.path u v i hi (he ▸ hi)
    · intro hp; exact closed_path G C A hlt hp
  · intro i hi
    obtain ⟨v, hv'⟩ := C.hit i hi
    exact ⟨v, (C.ids v i hv').2, hv'⟩

/-- **C34 (faces).** Every face gets the component id of all its vertices. -/
theorem C34_faces {d : P} {m : Mesh P} (h : Reachable d m) (hv : m.vRem = []) (f : Nat) (hf : LiveF m f) :
    ∀ v ∈ m.verticesAroundFace f, faceComponent m f = (findComponents m).comp v ∧ faceComponent m f ≠ none := by
  have W := reachable_wf h
  have F := W.faceOK hf
  have hlen := F.len
  have hn : m.numVertices = m.nV := by simp [Mesh.numVertices, hv]
  obtain ⟨c1, c2, -⟩ := C34_components h hv
  have hlt : ∀ x ∈ m.fh f, (m.hd x).t < m.numVertices := by
    intro x hx
    have := (W.half x (F.mem x hx).1).2.2.1
    rw [hn]; exact this.1
  have key : ∀ i, (hi : i < (m.fh f).length) → Connected m (m.hd ((m.fh f)[0])).t (m.hd ((m.fh f)[i])).t := by
    intro i
    induction i with
    | zero => intro _; exact .refl _
    | succ i ih =>
      intro hi
      have hp : ((m.fh f)[i], (m.fh f)[i + 1]) ∈ cycPairs (m.fh f) := by
        unfold cycPairs
        refine List.mem_iff_getElem.2 ⟨i, by simp; omega, ?_⟩
        simp [List.getElem_rotate, Nat.mod_eq_of_lt hi]
      have hc := (F.chain _ hp).2.2
      have hl := (F.mem (m.fh f)[i + 1] (List.getElem_mem hi)).1
      refine (ih (by omega)).trans _ _ _ (.rel _ _ ⟨(m.fh f)[i + 1], hl, ?_, rfl⟩)
      rw [W.source hl]; exact congrArg some hc
  intro v hv'
  obtain ⟨x, hx, rfl⟩ := List.mem_map.1 hv'
  obtain ⟨i, hi, rfl⟩ := List.getElem_of_mem hx
  have e : faceComponent m f = (findComponents m).comp (m.hd ((m.fh f)[0])).t := by
    unfold faceComponent Mesh.verticesAroundFace
    rw [List.head?_map, List.head?_eq_getElem?, List.getElem?_eq_getElem (by omega)]; rfl
  have h1 := hlt _ (List.getElem_mem (l := m.fh f) (n := 0) (by omega))
  constructor
  · rw [e]
    exact (c2 _ _ h1 (hlt _ hx)).2 (key i hi)
  · rw [e]
    obtain ⟨j, -, hj⟩ := c1 _ h1
    rw [hj]; simp

/-- **C34 (acceptance).** A mesh read from client arrays passes the check exactly when it has at least three vertices and every two of its vertices are
connected by sides of faces; in particular every vertex is used by some face. -/
theorem C34_accept (d : P) (a : Arrays) (pts : List P) (env : LoadEnv) (w : a.WellSized) (hp : pts.length = a.numVertices) (L : LoadOk a env) (m : Mesh P)
    (hm : loadArrays d a pts env = .mesh m) :
    checkInputMesh m = true ↔ 3 ≤ a.numVertices ∧ ∀ u v, u < a.numVertices → v < a.numVertices → Relation.EqvGen (Side a.faces) u v := by
  have B := C33_built d a pts env w hp L m hm
  have M := C33_mesh d a pts env w hp L m hm
  have W := reachable_wf B.reach
  obtain ⟨c1, c2, c3⟩ := C34_components B.reach B.vRem
  have hside : ∀ u v, Connected m u v ↔ Relation.EqvGen (Side a.faces) u v := by
    have e1 : ∀ u v, Side a.faces u v → MeshEdge m u v := by
      rintro u v ⟨f, hf, hs⟩
      rw [dirEdges_eq] at hs
      obtain ⟨i, hi, rfl⟩ := List.getElem_of_mem hf
      rw [← B.face_pairs i a.faces[i] (by simp [hi])] at hs
      obtain ⟨x, hx, he⟩ := List.mem_map.1 hs
      have hl := ((W.faceOK ((B.liveF i).2 hi)).mem x hx).1
      injection he with he1 he2
      exact ⟨x, hl, by rw [W.source hl, he1], he2⟩
    have e2 : ∀ u v, MeshEdge m u v → Relation.EqvGen (Side a.faces) u v := by
      rintro u v ⟨x, hl, hs, ht⟩
      rw [W.source hl] at hs
      injection hs with hs
      have ht' : (m.hd x).t = v := ht
      have key : ∀ p : Nat × Nat, p ∈ a.faces.flatMap cycPairs → Side a.faces p.1 p.2 := by
        intro p hp
        obtain ⟨f, hf, h⟩ := List.mem_flatMap.1 hp
        exact ⟨f, hf, by rw [dirEdges_eq]; exact h⟩
      rcases B.only x hl with h | h
      · have := key _ h; rw [hs, ht'] at this; exact .rel _ _ this
      · have := key _ h; rw [hs, ht'] at this; exact .symm _ _ (.rel _ _ this)
    intro u v
    constructor
    · intro h
      induction h with
      | rel x y h => exact e2 x y h
      | refl => exact .refl _
      | symm _ _ _ ih => exact ih.symm
      | trans _ _ _ _ _ ih1 ih2 => exact ih1.trans _ _ _ ih2
    · intro h; exact h.mono e1
  unfold checkInputMesh
  rw [M.2.1, M.2.2.1] at *
  have hpos := w.pos
  by_cases h3 : a.numVertices < 3
  · rw [if_pos h3]; constructor
    · simp
    · rintro ⟨h, _⟩; omega
  · rw [if_neg h3, if_neg (by omega), decide_eq_true_eq]
    constructor
    · intro h1
      refine ⟨by omega, fun u v hu hv => ?_⟩
      rw [← hside, ← c2 u v hu hv]
      obtain ⟨i, hi, e1⟩ := c1 u hu
      obtain ⟨j, hj, e2⟩ := c1 v hv
      rw [e1, e2]; congr 1; omega
    · rintro ⟨-, hall⟩
      obtain ⟨i0, hi0, -⟩ := c1 0 (by omega)
      by_contra hne
      obtain ⟨u, hu, e1⟩ := c3 0 (by omega)
      obtain ⟨v, hv, e2⟩ := c3 1 (by omega)
      have := (c2 u v hu hv).2 ((hside u v).2 (hall u v hu hv))
      rw [e1, e2] at this; simp at this

/-! ### examples -/

/-- Two triangles that do not touch. -/
def exTwo : Arrays := ⟨6, 2, none, [0, 1, 2, 3, 4, 5]⟩

example : ∃ m, loadArrays () exTetra [(), (), (), ()] (exEnv exTetra) = .mesh m ∧ checkInputMesh m = true := by
  have w : exTetra.WellSized := ⟨by decide, (by intro l h; cases h), by decide, by decide⟩
  refine ⟨_, rfl, ?_⟩
  rw [C34_accept () exTetra [(), (), (), ()] _ w rfl (exEnv_ok _ w) _ rfl]
  have h : ∀ u, u < 4 → Relation.EqvGen (Side exTetra.faces) 0 u := by
    intro u hu
    have : u = 0 ∨ u = 1 ∨ u = 2 ∨ u = 3 := by omega
    rcases this with rfl | rfl | rfl | rfl
    · exact .refl _
    · exact .rel _ _ ⟨[0, 1, 2], by decide, by decide⟩
    · exact .rel _ _ ⟨[0, 2, 3], by decide, by decide⟩
    · exact .rel _ _ ⟨[0, 3, 1], by decide, by decide⟩
  exact ⟨by decide, fun u v hu hv => ((h u hu).symm).trans _ _ _ (h v hv)⟩

example : ∃ m, loadArrays () exTwo [(), (), (), (), (), ()] (exEnv exTwo) = .mesh m ∧ checkInputMesh m = false := by
  have w : exTwo.WellSized := ⟨by decide, (by intro l h; cases h), by decide, by decide⟩
  refine ⟨_, rfl, ?_⟩
  rw [Bool.eq_false_iff]
  intro hc
  rw [C34_accept () exTwo [(), (), (), (), (), ()] _ w rfl (exEnv_ok _ w) _ rfl] at hc
  have hs : ∀ f ∈ exTwo.faces, ∀ p ∈ dirEdges f, (p.1 < 3 ↔ p.2 < 3) := by decide
  have key : ∀ u v, Relation.EqvGen (Side exTwo.faces) u v → (u < 3 ↔ v < 3) := by
    intro u v h
    induction h with
    | rel x y h => obtain ⟨f, hf, hp⟩ := h; exact hs f hf (x, y) hp
    | refl => rfl
    | symm _ _ _ ih => exact ih.symm
    | trans _ _ _ _ _ ih1 ih2 => exact ih1.trans ih2
  have := key 0 3 (hc.2 0 3 (by decide) (by decide))
  omega

end Mcut.Preproc
