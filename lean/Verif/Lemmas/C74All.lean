import Verif.Lemmas.C74

/-! Lemmas for C74: all polygons, and the extraction. -/
namespace Mcut.Trace
open Mcut.Hmesh Mcut.Registry Mcut.CutEdges Mcut.Boundary Mcut.Extract Mcut.CutPaths
variable {P : Type} {d : P} {ps : Mesh P} {base : Nat} {pts : Nat → List Nat} {sort : Nat → Nat → List Nat → List Nat} {edges : List Nat} {c : CutEdges.St P} {st : Boundary.St P}
  {pieces : Nat → List Nat} {reg : List (Nat × Nat)}

theorem sequential_some {smF : Nat} {part : (Nat → Bool) → List Nat → List Nat × List Nat} : ∀ {faces : List Nat} {o o' : Out},
    faces.foldlM (fun o f => (facePolygons ps st base reg part f).map (fun l => add smF f (Boundary.entry st f) l o)) o = some o' →
    ∀ f ∈ faces, ∃ l, facePolygons ps st base reg part f = some l := by
  intro faces
  induction faces with
  | nil => intro o o' _ f hf; cases hf
  | cons g faces ih =>
    intro o o' h f hf
    rw [List.foldlM_cons] at h
    cases hz : facePolygons ps st base reg part g with
    | none => rw [hz] at h; cases h
    | some l =>
      rw [hz] at h
      rcases List.mem_cons.1 hf with rfl | hf
      · exact ⟨l, hz⟩
      · exact ih h f hf

/-- The polygons of the source mesh come first. -/
theorem Given.listed (G : Given d ps base pts sort edges c st pieces reg) {part : (Nat → Bool) → List Nat → List Nat × List Nat} (hp : IsPartition part) {smF n : Nat} (hn : smF ≤ n)
    (hl : ∀ f, f < n → LiveF ps f) {o : Out} (h : sequential ps st smF base reg part (List.range n) = some o) :
    ∃ poly, (∀ f, f < n → facePolygons ps st base reg part f = some (poly f) ∧ FaceSub ps pts sort pieces c st.m0 f (poly f)) ∧ Listed smF c (List.range n) poly o ∧
      o.polygons.take o.smCount = (List.range smF).flatMap poly ∧ o.polygons.drop o.smCount = (List.range' smF (n - smF)).flatMap poly := by
  classical
  let poly : Nat → List (List Nat) := fun f => (facePolygons ps st base reg part f).getD []
  have hpoly : ∀ f ∈ List.range n, facePolygons ps st base reg part f = some (poly f) := by
    intro f hf
    obtain ⟨l, e⟩ := sequential_some h f hf
    simp only [poly, e, Option.getD_some]
  obtain ⟨o', e, L⟩ := listed_all (smF := smF) (c := c) (List.range n) [] Out.empty listed_empty (fun f hf => ⟨hpoly f hf, G.entry_iff (hl f (List.mem_range.1 hf))⟩)
  have : o = o' := by
    unfold sequential at h
    rw [h] at e
    exact Option.some.inj e
  subst this
  rw [List.nil_append] at L
  have hsplit : List.range n = List.range smF ++ List.range' smF (n - smF) := by
    rw [List.range_eq_range', List.range_eq_range']
    have := List.range'_append (s := 0) (m := smF) (n := n - smF) (step := 1)
    simp only [Nat.one_mul, Nat.zero_add] at this
    rw [this]
    congr 1
    omega
  have hfil : (List.range n).filter (fun f => decide (f < smF)) = List.range smF := by
    rw [hsplit, List.filter_append]
    have h1 : (List.range smF).filter (fun f => decide (f < smF)) = List.range smF := List.filter_eq_self.2 (fun a ha => by simpa using ha)
    have h2 : (List.range' smF (n - smF)).filter (fun f => decide (f < smF)) = [] := by
      rw [List.filter_eq_nil_iff]
      intro a ha
      rw [List.mem_range'_1] at ha
      simp; omega
    rw [h1, h2, List.append_nil]
  have hc := L.smCount
  rw [hfil] at hc
  refine ⟨poly, fun f hf => ⟨hpoly f (List.mem_range.2 hf), G.sub hp (hl f hf) (hpoly f (List.mem_range.2 hf))⟩, L, ?_, ?_⟩
  · rw [L.polygons, hsplit, List.flatMap_append, hc, List.take_left]
  · rw [L.polygons, hsplit, List.flatMap_append, hc, List.drop_left]

/-- A part of the polygons in which each cut edge belongs to one face only. -/
theorem seam_extract {m0 : Mesh P} (hr : Reachable d m0) {polys : List (List Nat)} (T : Traced m0 polys) (hne : polys ≠ []) (tab : Extract.Tables) (opt : SeamOptions) (offset : Nat)
    (threads : Option Nat) (ht : ∀ t, threads = some t → 0 < t ∧ polys.length + 1024 ≤ 2 ^ 32)
    (hv : ∀ v, v < m0.nV → vertexOrigin tab v = some (if v < base then some v else none)) (face : Nat → Option Nat)
    (hf : ∀ f, f < polys.length → face f ≠ none ∧ faceOrigin tab offset f = face f) :
    ∃ mesh out, extract d m0 polys (seamArgs m0 base offset tab opt) threads (fun _ => []) = some (mesh, out) ∧
      (OnePiece m0 polys → ∃ k c, present (Preproc.findComponents mesh).num out = [k] ∧ out k = [c] ∧ SeamMesh d m0 base polys face opt c) ∧
      (¬ OnePiece m0 polys → (present (Preproc.findComponents mesh).num out).length ≠ 1) := by
  set a := seamArgs m0 base offset tab opt with ha
  have hcorn : ∀ f, f < polys.length → ∀ v ∈ corners m0 polys f, v < m0.nV := by
    intro f hf v hv
    have : corners m0 polys f ∈ polys.map (fun p => p.map m0.target) := by
      unfold corners
      rw [List.getD_eq_getElem?_getD, List.getElem?_eq_getElem hf]
      exact List.mem_map.2 ⟨_, List.getElem_mem hf, rfl⟩
    exact (T.valid.1 _ this).2.2 v hv
  cases hx : extract d m0 polys a threads (fun _ => []) with
  | none =>
    exfalso
    refine C59_no_exception hr T a threads ht hne ?_ ?_ ?_ (fun _ => []) hx
    · intro _ f hfl v hv'
      show vertexOrigin tab v ≠ none
      rw [hv v (hcorn f hfl v hv')]; simp
    · intro _ f hfl
      show faceOrigin tab offset f ≠ none
      rw [(hf f hfl).2]; exact (hf f hfl).1
    · intro h; exact absurd rfl h
  | some r =>
    obtain ⟨mesh, out⟩ := r
    obtain ⟨vs, fs, h1, h2, h3, h4⟩ := C59_components hr T a threads ht mesh out hx
    -- all ids are below the number of components
    obtain ⟨B, s, order, R, V, hperm, I, hsave⟩ := extract_run hr T a threads ht mesh _ out hx
    have hids : ∀ k, out k ≠ [] → k < (Preproc.findComponents mesh).num := by
      intro k hk
      by_contra hge
      obtain ⟨sv1, -⟩ := saveAll_spec (List.range (Preproc.findComponents mesh).num) (fun _ => []) out List.nodup_range (fun _ _ => rfl) hsave
      exact hk (sv1 k (by rw [List.mem_range]; exact hge))
    have hpres : ∀ k, k ∈ present (Preproc.findComponents mesh).num out ↔ fs k ≠ [] := by
      intro k
      unfold present
      rw [List.mem_filter, List.mem_range]
      have hw : Wanted a (fs k) := by
        have : Extract.sideOf a (fs k) = none := by
          unfold Extract.sideOf
          simp [ha, seamArgs]
        unfold Wanted
        rw [this]; trivial
      constructor
      · rintro ⟨-, h⟩
        have : out k ≠ [] := by intro e; rw [e] at h; cases h
        exact ((h3 k).1 this).1
      · intro h
        have hk := (h3 k).2 ⟨h, hw⟩
        refine ⟨hids k hk, ?_⟩
        cases hz : out k with
        | nil => exact absurd hz hk
        | cons x l => rfl
    have hlen : 0 < polys.length := List.length_pos_of_ne_nil hne
    refine ⟨mesh, out, rfl, ?_, ?_⟩
    · intro OP
      obtain ⟨k, hk, -⟩ := h1 0 hlen
      have hall : ∀ f, f < polys.length → f ∈ fs k := fun f hf => (h2 k 0 hk f).2 ⟨hf, OP 0 f hlen hf⟩
      have hsub : ∀ f ∈ fs k, f < polys.length := fun f hf => ((h2 k f hf f).1 hf).1
      have hone : ∀ j, fs j ≠ [] → j = k := by
        intro j hj
        obtain ⟨f, hf⟩ := List.exists_mem_of_ne_nil _ hj
        have hfl := ((h2 j f hf f).1 hf).1
        obtain ⟨j', -, hu⟩ := h1 f hfl
        exact (hu j hf).trans (hu k (hall f hfl)).symm
      have hp1 : present (Preproc.findComponents mesh).num out = [k] := by
        have hnd : (present (Preproc.findComponents mesh).num out).Nodup := List.nodup_range.filter _
        have hm : ∀ j, j ∈ present (Preproc.findComponents mesh).num out ↔ j ∈ [k] := by
          intro j
          rw [hpres, List.mem_singleton]
          exact ⟨hone j, fun e => by rw [e]; exact List.ne_nil_of_mem hk⟩
        exact List.perm_singleton.1 ((List.perm_ext_iff_of_nodup hnd (by simp)).2 hm)
      have hout : out k ≠ [] := by
        have := hp1 ▸ List.mem_singleton.2 rfl
        unfold present at this
        intro e
        have := (List.mem_filter.1 this).2
        rw [e] at this; cases this
      obtain ⟨x, hx'⟩ := List.exists_mem_of_ne_nil _ hout
      obtain ⟨q1, C, -, q4, q5, q6, q7⟩ := h4 k x hx'
      have hvsl : ∀ i v : Nat, (vs k)[i]? = some v → v < m0.nV := by
        intro i v hi
        obtain ⟨f, hf1, hf2⟩ := (C.used v).1 (List.mem_of_getElem? hi)
        exact hcorn f (C.range f hf1) v hf2
      refine ⟨k, x, hp1, q1, vs k, fs k, C, hall, ?_, q5, ?_, ?_⟩
      · intro i
        rw [q4]
        constructor
        · rintro ⟨v, e1, e2⟩
          refine ⟨v, e1, ?_⟩
          rw [ha] at e2
          simp only [seamArgs, markSeam, List.getElem?_map] at e2
          rw [List.getElem?_range (by simpa [Mesh.numVertices, T.noRemoved.1] using hvsl i v e1)] at e2
          simpa using e2
        · rintro ⟨v, e1, e2⟩
          refine ⟨v, e1, ?_⟩
          rw [ha]
          simp only [seamArgs, markSeam, List.getElem?_map]
          rw [List.getElem?_range (by simpa [Mesh.numVertices, T.noRemoved.1] using hvsl i v e1)]
          simpa using e2
      · intro hpv
        obtain ⟨r1, r2⟩ := q6 hpv
        refine ⟨r1, fun i v hi => ?_⟩
        rw [← r2 i v hi]
        exact hv v (hvsl i v hi)
      · intro hpf
        obtain ⟨r1, r2⟩ := q7 hpf
        refine ⟨r1, fun i f hi => ?_⟩
        rw [← r2 i f hi]
        exact (hf f (hsub f (List.mem_of_getElem? hi))).2
    · intro hno h1'
      apply hno
      obtain ⟨k, hk⟩ := List.length_eq_one_iff.1 h1'
      have hall : ∀ f, f < polys.length → f ∈ fs k := by
        intro f hf
        obtain ⟨j, hj, -⟩ := h1 f hf
        have := (hpres j).2 (List.ne_nil_of_mem hj)
        rw [hk, List.mem_singleton] at this
        rw [← this]; exact hj
      intro f g hf hg
      exact ((h2 k f (hall f hf) g).1 (hall g hg)).2

end Mcut.Trace
