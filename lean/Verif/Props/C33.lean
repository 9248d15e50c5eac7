import Verif.Lemmas.C33
/-! # C33: which input meshes are accepted, and the mesh that is built from them -/
namespace Mcut.Preproc
open Mcut.Hmesh Mcut.Sched
variable {P : Type}

/-- **C33 (acceptance).** Client arrays (of the announced lengths) are turned into a mesh exactly when every face is a polygon — at least three
indices, all different, all in range — and no directed edge occurs in two faces (the mesh is edge-manifold and consistently oriented). In all
other cases they are rejected; whatever the number of threads and the interleaving, nothing undefined happens and no exception is thrown. -/
theorem C33_accepts_iff (d : P) (a : Arrays) (pts : List P) (env : LoadEnv) (w : a.WellSized) (hp : pts.length = a.numVertices) (L : LoadOk a env) :
    (∃ m, loadArrays d a pts env = .mesh m) ∧ ValidMesh a.numVertices a.faces ∨
    loadArrays d a pts env = .rejected ∧ ¬ ValidMesh a.numVertices a.faces := by
  have C := load_cases (d := d) w hp L
  have hall : (∀ f ∈ a.faces, GoodFace a.numVertices f) ↔ ∀ f, f < a.numFaces → GoodFace a.numVertices (faceAt a f) := by
    constructor
    · intro h f hf; exact h _ (List.mem_of_getElem? (w.face f hf).1)
    · intro h f hf
      obtain ⟨i, hi, rfl⟩ := List.getElem_of_mem hf
      have hi' : i < a.numFaces := by unfold Arrays.faces at hi; rw [splitBy_length, w.length] at hi; exact hi
      have := (w.face i hi').1
      rw [List.getElem?_eq_getElem hi] at this
      injection this with this
      rw [this]; exact h i hi'
  by_cases hg : ∀ f, f < a.numFaces → GoodFace a.numVertices (faceAt a f)
  · have B := built_vertices d pts
    have A := addFaces_spec a.faces [] _ B (by rw [hp]; exact hall.2 hg) (by simp)
    rw [C.1 hg]
    have e : a.faces.flatMap dirEdges = a.faces.flatMap cycPairs := by
      congr 1; funext f; exact dirEdges_eq f
    rw [List.nil_append] at A
    by_cases hr : (addFaces (addVertices (Mesh.empty d) pts) a.faces).2 = true
    · left
      rw [if_pos hr]
      exact ⟨⟨_, rfl⟩, hall.2 hg, by rw [e]; exact A.1.1 hr⟩
    · right
      rw [if_neg hr]
      refine ⟨rfl, fun hv => hr (A.1.2 ?_)⟩
      rw [← e]; exact hv.2
  · right
    have : ∃ f, f < a.numFaces ∧ ¬ GoodFace a.numVertices (faceAt a f) := by
      by_contra hc
      apply hg
      intro f hf
      by_contra h
      exact hc ⟨f, hf, h⟩
    exact ⟨C.2 this, fun hv => hg (hall.1 hv.1)⟩

theorem C33_built (d : P) (a : Arrays) (pts : List P) (env : LoadEnv) (w : a.WellSized) (hp : pts.length = a.numVertices) (L : LoadOk a env) (m : Mesh P)
    (hm : loadArrays d a pts env = .mesh m) : Built d pts a.faces m := by
  have hv : ValidMesh a.numVertices a.faces := by
    rcases C33_accepts_iff d a pts env w hp L with ⟨_, h⟩ | ⟨h, _⟩
    · exact h
    · rw [h] at hm; cases hm
  have hg : ∀ f, f < a.numFaces → GoodFace a.numVertices (faceAt a f) := fun f hf => hv.1 _ (List.mem_of_getElem? (w.face f hf).1)
  have C := (load_cases (d := d) w hp L).1 hg
  rw [hm] at C
  have A := addFaces_spec a.faces [] _ (built_vertices d pts) (by rw [hp]; exact hv.1) (by simp)
  by_cases hr : (addFaces (addVertices (Mesh.empty d) pts) a.faces).2 = true
  · rw [if_pos hr] at C
    injection C with C
    rw [C]; exact A.2 hr
  · rw [if_neg hr] at C; cases C

/-- **C33 (the mesh).** An accepted mesh has the client's vertices and faces, with the client's numbering: vertex `v` at its position, face `i`
with the vertices of the client's face `i` in the same cyclic order (the halfedge structure lists them starting at the second one); and it is
a sound halfedge mesh (`Reachable`: all of C30). -/
theorem C33_mesh (d : P) (a : Arrays) (pts : List P) (env : LoadEnv) (w : a.WellSized) (hp : pts.length = a.numVertices) (L : LoadOk a env) (m : Mesh P)
    (hm : loadArrays d a pts env = .mesh m) :
    Reachable d m ∧ m.numVertices = a.numVertices ∧ m.numFaces = a.numFaces ∧ (∀ v p, pts[v]? = some p → m.pos v = p) ∧
      ∀ i f, a.faces[i]? = some f → m.verticesAroundFace i = f.rotate 1 := by
  have B := C33_built d a pts env w hp L m hm
  refine ⟨B.reach, ?_, ?_, B.pos, B.tgts⟩
  · simp [Mesh.numVertices, B.vRem, B.nV, hp]
  · simp only [Mesh.numFaces, B.fRem, B.nF, List.length_nil, Nat.sub_zero]
    unfold Arrays.faces; rw [splitBy_length, w.length]

/-- **C33 (schedule independence).** The number of threads and the interleaving do not change the outcome. -/
theorem C33_schedule_independent (d : P) (a : Arrays) (pts : List P) (env env' : LoadEnv) (w : a.WellSized) (hp : pts.length = a.numVertices)
    (L : LoadOk a env) (L' : LoadOk a env') : loadArrays d a pts env = loadArrays d a pts env' := by
  by_cases hg : ∀ f, f < a.numFaces → GoodFace a.numVertices (faceAt a f)
  · rw [(load_cases (d := d) w hp L).1 hg, (load_cases (d := d) w hp L').1 hg]
  · have : ∃ f, f < a.numFaces ∧ ¬ GoodFace a.numVertices (faceAt a f) := by
      by_contra hc
      apply hg
      intro f hf
      by_contra h
      exact hc ⟨f, hf, h⟩
    rw [(load_cases (d := d) w hp L).2 this, (load_cases (d := d) w hp L').2 this]

/-! ### examples -/

/-- A tetrahedron, without an array of face sizes. -/
def exTetra : Arrays := ⟨4, 4, none, [0, 1, 2, 0, 3, 1, 1, 3, 2, 0, 2, 3]⟩

/-- A square and a triangle that share an edge in the same direction. -/
def exFlipped : Arrays := ⟨5, 2, some [4, 3], [0, 1, 2, 3, 0, 1, 4]⟩

/-- One thread. -/
def exEnv (a : Arrays) : LoadEnv := ⟨1, fun _ => CC.sums 0 a.sizesOf, fun _ => false⟩

theorem exEnv_ok (a : Arrays) (w : a.WellSized) : LoadOk a (exEnv a) where
  avail := Nat.one_pos
  ps := CC.psViews_one _ _ (by intro h; have := w.length; rw [h] at this; have := w.pos; simp at *; omega)
    (by rw [w.length]; exact w.fits.2) (by have := w.fits.1; omega)
  seen := by
    intro bs hbs i hi
    have := (CC.blocks_count _ _ _ w.pos Nat.one_pos (by decide) w.fits.2 bs hbs).2
    have e : min 1 ((a.numFaces + 1024 - 1) / 1024) ≤ 1 := Nat.min_le_left _ _
    exact absurd hi (by rw [this]; omega)

example : exTetra.WellSized := ⟨by decide, (by intro l h; cases h), by decide, by decide⟩
example : ValidMesh 4 exTetra.faces := by unfold ValidMesh GoodFace; decide
example : ∃ m, loadArrays () exTetra [(), (), (), ()] (exEnv exTetra) = .mesh m := by
  have w : exTetra.WellSized := ⟨by decide, (by intro l h; cases h), by decide, by decide⟩
  have v : ValidMesh exTetra.numVertices exTetra.faces := by unfold ValidMesh GoodFace; decide
  rcases C33_accepts_iff () exTetra [(), (), (), ()] _ w rfl (exEnv_ok _ w) with h | h
  · exact h.1
  · exact absurd v h.2
example : loadArrays () exFlipped [(), (), (), (), ()] (exEnv exFlipped) = .rejected := by
  have w : exFlipped.WellSized := ⟨by decide, by intro l h; cases h; rfl, by decide, by decide⟩
  have v : ¬ ValidMesh exFlipped.numVertices exFlipped.faces := by unfold ValidMesh GoodFace; decide
  rcases C33_accepts_iff () exFlipped [(), (), (), (), ()] _ w rfl (exEnv_ok _ w) with h | h
  · exact absurd h.2 v
  · exact h.1

end Mcut.Preproc
