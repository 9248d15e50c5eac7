import Verif.Lemmas.C59Rec
import Verif.Spec.C88
import Verif.Spec.C59

/-! # Connected components as meshes of faces -/
namespace Mcut.Cdt
open Mcut.Hmesh Mcut.Preproc
variable {P : Type} {d : P} {pts : List P} {fs : List (List Nat)} {cc : Mesh P}

/-- In a face, the sources of the halfedges and their targets. -/
theorem face_sources {f : Nat} (F : FaceOK cc f) : ((cc.fh f).map (fun h => (cc.hd (opposite h)).t)).rotate 1 = (cc.fh f).map (fun h => (cc.hd h).t) := by
  rw [← List.map_rotate]
  have e1 := cycPairs_snd (cc.fh f)
  have e2 := cycPairs_fst (cc.fh f)
  rw [← e1]
  conv_rhs => rw [← e2]
  rw [List.map_map, List.map_map]
  exact List.map_congr_left fun p hp => (F.chain p hp).2.2

theorem Component.built (C : Component d pts fs cc) : Built d pts fs cc := by
  have W := reachable_wf C.mesh
  have nF : cc.nF = fs.length := by have := C.count; unfold Mesh.numFaces at this; rw [C.noRemoved.2] at this; simpa using this
  have live : ∀ i f, fs[i]? = some f → LiveF cc i := fun i f h => by
    unfold LiveF Live; rw [C.noRemoved.2, nF]; simpa using (List.getElem?_eq_some_iff.1 h).1
  have src : ∀ i f, fs[i]? = some f → (cc.fh i).map (fun h => (cc.hd (opposite h)).t) = f := by
    intro i f h
    have e : (cc.fh i).map (fun h => (cc.hd h).t) = f.rotate 1 := C.faces i f h
    rw [← face_sources (W.faceOK (live i f h))] at e
    exact List.rotate_injective 1 e
  refine ⟨C.mesh, C.noRemoved.1, C.noRemoved.2, ?_, nF, C.places, C.faces, src, C.single, ?_⟩
  · have := C.vertices; unfold Mesh.numVertices at this; rw [C.noRemoved.1] at this; simpa using this
  · have key : ∀ x i, LiveF cc i → x ∈ cc.fh i → ((cc.hd (opposite x)).t, (cc.hd x).t) ∈ fs.flatMap cycPairs := by
      intro x i hi hx
      have hl : i < fs.length := by unfold LiveF Live at hi; rw [C.noRemoved.2, nF] at hi; simpa using hi
      have e := List.getElem?_eq_getElem hl
      refine List.mem_flatMap.2 ⟨_, List.mem_of_getElem? e, ?_⟩
      rw [← pairs_of_maps _ _ _ _ (src i _ e) (C.faces i _ e)]
      exact List.mem_map.2 ⟨x, hx, rfl⟩
    intro x hx
    rcases C.edges x hx with ⟨i, hi, h⟩ | ⟨i, hi, h⟩
    · exact .inl (key x i hi h)
    · right
      have := key _ i hi h
      rwa [opposite_opposite] at this

theorem component_of_built (B : Built d pts fs cc) (good : ∀ f ∈ fs, GoodFace pts.length f) : Component d pts fs cc where
  good := good
  mesh := B.reach
  noRemoved := ⟨B.vRem, B.fRem⟩
  vertices := by unfold Mesh.numVertices; rw [B.vRem, B.nV]; simp
  places := B.pos
  count := by unfold Mesh.numFaces; rw [B.fRem, B.nF]; simp
  faces := B.tgts
  edges := B.edges.1
  single := B.edges.2

/-- Faces that are added one after the other. -/
theorem component_of_addFaces (good : ∀ f ∈ fs, GoodFace pts.length f) (h : (addFaces (addVertices (Mesh.empty d) pts) fs).2 = true) : Component d pts fs (addFaces (addVertices (Mesh.empty d) pts) fs).1 := by
  have := (addFaces_spec fs [] _ (built_vertices d pts) good (by simp)).2 h
  rw [List.nil_append] at this
  exact component_of_built this good

/-- The faces of a mesh. -/
def facesOf (cc : Mesh P) : List (List Nat) := (List.range cc.numFaces).map (fun i => (cc.verticesAroundFace i).rotate ((cc.verticesAroundFace i).length - 1))

/-- What the kernel puts out as a copy of polygons is a component. -/
theorem component_of_copy {m : Mesh P} {polys : List (List Nat)} {vs js : List Nat} (C : Extract.CopyOf d m polys cc vs js)
    (good : ∀ f ∈ js, 3 ≤ (Extract.corners m polys f).length ∧ (Extract.corners m polys f).Nodup) : Component d (vs.map m.pos) (facesOf cc) cc where
  good := by
    intro f hf
    obtain ⟨i, hi, rfl⟩ := List.mem_map.1 hf
    have hi' : i < js.length := by rw [← C.numF]; exact List.mem_range.1 hi
    have R := C.faces i _ (List.getElem?_eq_getElem hi')
    obtain ⟨g1, g2⟩ := good _ (List.getElem_mem hi')
    have l : (cc.verticesAroundFace i).length = (Extract.corners m polys js[i]).length := by
      have := R.perm.length_eq
      rwa [List.length_map, List.length_map] at this
    refine ⟨by rw [List.length_rotate, l]; exact g1, ?_, ?_⟩
    · rw [List.nodup_rotate]
      have : ((cc.verticesAroundFace i).map (fun x => vs[x]?)).Nodup := by
        rw [R.perm.nodup_iff]
        exact g2.map (Option.some_injective _)
      exact List.Nodup.of_map _ this
    · intro v hv
      rw [List.mem_rotate] at hv
      have : vs[v]? ∈ (Extract.corners m polys js[i]).map some := R.perm.mem_iff.1 (List.mem_map.2 ⟨v, hv, rfl⟩)
      obtain ⟨x, -, hx⟩ := List.mem_map.1 this
      rw [List.length_map]
      exact (List.getElem?_eq_some_iff.1 hx.symm).1
  mesh := C.mesh
  noRemoved := C.noRemoved
  vertices := by rw [C.numV, List.length_map]
  places := by
    intro v p h
    rw [List.getElem?_map] at h
    obtain ⟨x, hx, rfl⟩ := Option.map_eq_some_iff.1 h
    exact C.pos v x hx
  count := by simp [facesOf]
  faces := by
    intro i f h
    unfold facesOf at h
    rw [List.getElem?_map] at h
    obtain ⟨x, hx, rfl⟩ := Option.map_eq_some_iff.1 h
    obtain ⟨hl, rfl⟩ := List.getElem?_eq_some_iff.1 hx
    rw [List.getElem_range, List.rotate_rotate]
    by_cases h0 : (cc.verticesAroundFace i).length = 0
    · rw [List.length_eq_zero_iff.1 h0]; rfl
    · rw [Nat.sub_add_cancel (by omega), List.rotate_length]
  edges := C.edges
  single := C.single

/-- A component, all of whose vertices are used, is a copy of itself. -/
theorem component_copy (C : Component d pts fs cc) (hu : ∀ v, v < pts.length → ∃ f ∈ fs, v ∈ f) :
    Extract.CopyOf d cc ((List.range fs.length).map cc.fh) cc (List.range pts.length) (List.range fs.length) := by
  have cor : ∀ (i : Nat) (f : List Nat), fs[i]? = some f → Extract.corners cc ((List.range fs.length).map cc.fh) i = f.rotate 1 := by
    intro i f h
    have hl := (List.getElem?_eq_some_iff.1 h).1
    unfold Extract.corners
    rw [List.getD_eq_getElem?_getD, List.getElem?_map, List.getElem?_range hl]
    exact C.faces i f h
  have lt : ∀ (i : Nat) (f : List Nat), fs[i]? = some f → ∀ v ∈ f, v < pts.length := fun i f h v hv => (C.good f (List.mem_of_getElem? h)).2.2 v hv
  refine ⟨C.mesh, C.noRemoved, by rw [List.length_range]; exact C.vertices, by rw [List.length_range]; exact C.count, List.nodup_range, List.nodup_range, ?_, ?_, ?_, ?_, C.edges, C.single⟩
  · intro i v h
    obtain ⟨-, rfl⟩ := List.getElem?_eq_some_iff.1 h
    rw [List.getElem_range]
  · intro f hf; simpa using hf
  · intro i f h
    obtain ⟨hl, rfl⟩ := List.getElem?_eq_some_iff.1 h
    rw [List.length_range] at hl
    rw [List.getElem_range]
    have e := List.getElem?_eq_getElem hl
    rw [cor i _ e, C.faces i _ e]
    have : (fs[i].rotate 1).map (fun x => (List.range pts.length)[x]?) = (fs[i].rotate 1).map some :=
      List.map_congr_left fun x hx => List.getElem?_range (lt i _ e x (List.mem_rotate.1 hx))
    rw [this]
  · intro v
    constructor
    · intro hv
      obtain ⟨f, hf, hvf⟩ := hu v (List.mem_range.1 hv)
      obtain ⟨i, hi⟩ := List.mem_iff_getElem?.1 hf
      exact ⟨i, List.mem_range.2 (List.getElem?_eq_some_iff.1 hi).1, by rw [cor i f hi]; exact List.mem_rotate.2 hvf⟩
    · rintro ⟨i, hi, hv⟩
      have e := List.getElem?_eq_getElem (List.mem_range.1 hi)
      rw [cor i _ e] at hv
      exact List.mem_range.2 (lt i _ e v (List.mem_rotate.1 hv))

end Mcut.Cdt
