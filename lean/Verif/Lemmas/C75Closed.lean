import Verif.Lemmas.C75Mesh
import Verif.Props.C49
import Verif.Lemmas.C33

/-! C75: watertight meshes: every directed side of a triangle occurs in both directions. -/
namespace Mcut.Winding
open Mcut.Hmesh Mcut.Dispatch

theorem divides_of_tri {b : Body} {d : Vec} (hr : Reachable d b.mesh) (hp : ∀ f, LiveF b.mesh f → 4 < (b.mesh.verticesAroundFace f).length → Divides (b.mesh.verticesAroundFace f) (trianglesOf b f))
    {f : Nat} (hf : LiveF b.mesh f) : Divides (b.mesh.verticesAroundFace f) (trianglesOf b f) := by
  have len : 3 ≤ (b.mesh.verticesAroundFace f).length := by
    have := ((reachable_wf hr).faceOK hf).len
    unfold Mesh.verticesAroundFace; rw [List.length_map]; exact this
  by_cases h4 : 4 < (b.mesh.verticesAroundFace f).length
  · exact hp f hf h4
  · by_cases h4' : (b.mesh.verticesAroundFace f).length = 4
    · obtain ⟨v0, v1, v2, v3, e⟩ : ∃ v0 v1 v2 v3, b.mesh.verticesAroundFace f = [v0, v1, v2, v3] := by
        match h : b.mesh.verticesAroundFace f, h4' with
        | [v0, v1, v2, v3], _ => exact ⟨v0, v1, v2, v3, rfl⟩
      refine ⟨[(v1, v3)], ?_⟩
      have et : trianglesOf b f = [(v0, v1, v3), (v1, v2, v3)] := by unfold trianglesOf corner; rw [e]; simp
      have ed : Preproc.dirEdges (b.mesh.verticesAroundFace f) = [(v0, v1), (v1, v2), (v2, v3), (v3, v0)] := by rw [e, Preproc.dirEdges_eq]; rfl
      rw [et, ed]
      show List.Perm [(v0, v1), (v1, v3), (v3, v0), (v1, v2), (v2, v3), (v3, v1)] [(v0, v1), (v1, v2), (v2, v3), (v3, v0), (v1, v3), (v3, v1)]
      refine List.Perm.cons _ ?_
      refine (List.perm_middle (l₁ := [(v1, v3), (v3, v0)]) (a := (v1, v2)) (l₂ := [(v2, v3), (v3, v1)])).trans (List.Perm.cons _ ?_)
      refine (List.perm_middle (l₁ := [(v1, v3), (v3, v0)]) (a := (v2, v3)) (l₂ := [(v3, v1)])).trans (List.Perm.cons _ ?_)
      exact List.Perm.swap _ _ _
    · have h3 : (b.mesh.verticesAroundFace f).length = 3 := by omega
      obtain ⟨v0, v1, v2, e⟩ : ∃ v0 v1 v2, b.mesh.verticesAroundFace f = [v0, v1, v2] := by
        match h : b.mesh.verticesAroundFace f, h3 with
        | [v0, v1, v2], _ => exact ⟨v0, v1, v2, rfl⟩
      refine ⟨[], ?_⟩
      have et : trianglesOf b f = [(v0, v1, v2)] := by unfold trianglesOf corner; rw [e]; simp
      have ed : Preproc.dirEdges (b.mesh.verticesAroundFace f) = [(v0, v1), (v1, v2), (v2, v0)] := by rw [e, Preproc.dirEdges_eq]; rfl
      rw [et, ed]
      exact List.Perm.refl _

theorem sides_append (s t : List (Nat × Nat × Nat)) : sides (s ++ t) = sides s ++ sides t := by unfold sides; exact List.flatMap_append

theorem perm_shuffle {A B : List (Nat × Nat)} {D E : List (Nat × Nat)} : ((A ++ (D ++ D.map Prod.swap)) ++ (B ++ (E ++ E.map Prod.swap))).Perm ((A ++ B) ++ ((D ++ E) ++ (D ++ E).map Prod.swap)) := by
  rw [List.perm_iff_count]
  intro x
  simp only [List.count_append, List.map_append]
  omega

theorem divides_all {b : Body} : ∀ l : List Nat, (∀ f ∈ l, Divides (b.mesh.verticesAroundFace f) (trianglesOf b f)) →
    ∃ D : List (Nat × Nat), (sides (l.flatMap (trianglesOf b))).Perm (l.flatMap (fun f => Preproc.dirEdges (b.mesh.verticesAroundFace f)) ++ (D ++ D.map Prod.swap))
  | [], _ => ⟨[], by simp [sides]⟩
  | f :: l, h => by
    obtain ⟨D, hD⟩ := h f List.mem_cons_self
    obtain ⟨E, hE⟩ := divides_all l (fun g hg => h g (List.mem_cons_of_mem _ hg))
    refine ⟨D ++ E, ?_⟩
    rw [List.flatMap_cons, List.flatMap_cons, sides_append]
    exact (hD.append hE).trans perm_shuffle

/-- Source and target of a halfedge. -/
def ends (m : Mesh Vec) (h : Nat) : Nat × Nat := ((m.hd (opposite h)).t, (m.hd h).t)

theorem dirEdges_face {m : Mesh Vec} {f : Nat} (K : FaceOK m f) : (Preproc.dirEdges (m.verticesAroundFace f)).Perm ((m.fh f).map (ends m)) := by
  rw [Preproc.dirEdges_eq]
  unfold Mesh.verticesAroundFace cycPairs
  rw [← List.map_rotate, List.zip_map]
  have e : (List.zip (m.fh f) ((m.fh f).rotate 1)).map (Prod.map m.target m.target) = (((m.fh f).zip ((m.fh f).rotate 1)).map Prod.snd).map (ends m) := by
    rw [List.map_map]
    apply List.map_congr_left
    intro p hp
    have := (K.chain p hp).2.2
    show (m.target p.1, m.target p.2) = ends m p.2
    unfold ends Mesh.target
    rw [this]
  rw [e, List.map_snd_zip (by simp)]
  exact (List.rotate_perm _ _).map _

theorem halfedges_nodup {m : Mesh Vec} {d : Vec} (hr : Reachable d m) : ∀ l : List Nat, l.Nodup → (∀ f ∈ l, LiveF m f) → (l.flatMap m.fh).Nodup
  | [], _, _ => by simp
  | f :: l, hn, hl => by
    rw [List.flatMap_cons, List.nodup_append]
    have W := reachable_wf hr
    refine ⟨(W.faceOK (hl f List.mem_cons_self)).nd, halfedges_nodup hr l (List.nodup_cons.1 hn).2 (fun g hg => hl g (List.mem_cons_of_mem _ hg)), ?_⟩
    intro x hx y hy e
    subst e
    obtain ⟨g, hg, hx'⟩ := List.mem_flatMap.1 hy
    have := C29_one_face hr f g x (hl f List.mem_cons_self) (hl g (List.mem_cons_of_mem _ hg)) hx hx'
    subst this
    exact (List.nodup_cons.1 hn).1 hg

/-- In a watertight mesh every directed edge of a face is the reversed edge of one. -/
theorem closed_perm {m : Mesh Vec} {d : Vec} (hr : Reachable d m) (hc : m.isClosed = true) :
    (((faces m).flatMap (fun f => Preproc.dirEdges (m.verticesAroundFace f))).map Prod.swap).Perm ((faces m).flatMap (fun f => Preproc.dirEdges (m.verticesAroundFace f))) := by
  have W := reachable_wf hr
  have P : ((faces m).flatMap (fun f => Preproc.dirEdges (m.verticesAroundFace f))).Perm (((faces m).flatMap m.fh).map (ends m)) := by
    rw [List.map_flatMap]
    apply List.Perm.flatMap_left
    intro f hf
    exact dirEdges_face (W.faceOK (mem_faces.1 hf))
  have nd : ((faces m).flatMap m.fh).Nodup := halfedges_nodup hr _ (by rw [faces_eq]; exact List.Nodup.filter _ List.nodup_range) (fun f hf => mem_faces.1 hf)
  have memH : ∀ h, h ∈ (faces m).flatMap m.fh ↔ LiveH m h := by
    intro h
    constructor
    · intro hh
      obtain ⟨f, hf, hh⟩ := List.mem_flatMap.1 hh
      exact ((W.faceOK (mem_faces.1 hf)).mem h hh).1
    · intro hh
      have : (m.face h).isSome = true := by
        unfold Mesh.isClosed at hc
        rw [List.all_eq_true] at hc
        apply hc
        rw [(C32_enumeration m).2.2.1]
        unfold liveList
        simp only [List.mem_filter, List.mem_range, decide_eq_true_eq]
        exact hh
      obtain ⟨f, hf⟩ := Option.isSome_iff_exists.1 this
      rcases W.h_face h f hh hf with ⟨rfl, e⟩ | ⟨_, hl, e⟩
      · cases e
      · exact List.mem_flatMap.2 ⟨f, mem_faces.2 hl, e⟩
  have Q : (((faces m).flatMap m.fh).map opposite).Perm ((faces m).flatMap m.fh) := by
    rw [List.perm_ext_iff_of_nodup (nd.map (fun a b e => by rw [← opposite_opposite a, e, opposite_opposite])) nd]
    intro h
    constructor
    · intro hh
      obtain ⟨x, hx, rfl⟩ := List.mem_map.1 hh
      exact (memH _).2 (W.opp_live ((memH x).1 hx))
    · intro hh
      exact List.mem_map.2 ⟨opposite h, (memH _).2 (W.opp_live ((memH h).1 hh)), opposite_opposite h⟩
  refine (P.map Prod.swap).trans (List.Perm.trans ?_ P.symm)
  rw [List.map_map]
  have e : ((faces m).flatMap m.fh).map (Prod.swap ∘ ends m) = (((faces m).flatMap m.fh).map opposite).map (ends m) := by
    rw [List.map_map]
    apply List.map_congr_left
    intro h _
    show Prod.swap (ends m h) = ends m (opposite h)
    unfold ends
    rw [opposite_opposite]
    rfl
  rw [e]
  exact Q.map _

/-- The sides of the triangles of a watertight mesh. -/
theorem balanced {b : Body} (hp : Proper b) (hc : b.mesh.isClosed = true) : ((sides (triangles b)).map Prod.swap).Perm (sides (triangles b)) := by
  obtain ⟨d, hr⟩ := hp.reachable
  have L : ∀ f ∈ (List.range b.mesh.nF).filter (fun f => decide (f ∉ b.mesh.fRem)), LiveF b.mesh f := by
    intro f hf; rw [← faces_eq] at hf; exact mem_faces.1 hf
  obtain ⟨D, hD⟩ := divides_all (b := b) _ (fun f hf => divides_of_tri hr hp.divided (L f hf))
  unfold triangles
  refine (hD.map Prod.swap).trans (List.Perm.trans ?_ hD.symm)
  rw [List.map_append]
  refine List.Perm.append ?_ ?_
  · have := closed_perm hr hc
    rw [faces_eq] at this
    exact this
  · rw [List.map_append, List.map_map]
    have : D.map (Prod.swap ∘ Prod.swap) = D := by
      conv_rhs => rw [← List.map_id D]
      apply List.map_congr_left
      intro p _
      exact Prod.swap_swap p
    rw [this]
    exact List.perm_append_comm

end Mcut.Winding
