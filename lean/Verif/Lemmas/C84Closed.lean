import Verif.Lemmas.C84Traced
import Verif.Lemmas.C74Whole
import Verif.Props.C49
import Verif.Lemmas.C78Out

/-!
# Lemmas for C84: a component is closed if its polygons are
-/
namespace Mcut.Stitch
open Mcut.Hmesh Mcut.Extract Mcut.Preproc
open Mcut.Split (In SplitOf src_some)
open Mcut.Trace (src Round src_of dir_map dir_rot)
variable {P : Type} {d : P} {m0 m1 m c : Mesh P} {base numCut n : Nat} {source polys pats polys1 polysS : List (List Nat)} {ks : List Nat} {ver orig : Nat → Nat} {faces cmv : List (Nat × Nat)}
  {at' half : Nat → Nat → Nat} {made : List (Nat × Nat)} {vs fs : List Nat}

/-- The sides of a face. -/
theorem face_side (hr : Reachable d c) {i : Nat} (hi : LiveF c i) {u v : Nat} : (u, v) ∈ dirEdges (c.verticesAroundFace i) ↔ ∃ h ∈ c.fh i, c.target (opposite h) = u ∧ c.target h = v := by
  have K := (reachable_wf hr).faceOK hi
  have p : (dirEdges (c.verticesAroundFace i)).Perm ((c.fh i).map (fun h => (c.target (opposite h), c.target h))) := by
    rw [dirEdges_eq]
    unfold Mesh.verticesAroundFace cycPairs
    rw [← List.map_rotate, List.zip_map]
    have e : (List.zip (c.fh i) ((c.fh i).rotate 1)).map (Prod.map c.target c.target) = (((c.fh i).zip ((c.fh i).rotate 1)).map Prod.snd).map (fun h => (c.target (opposite h), c.target h)) := by
      rw [List.map_map]
      apply List.map_congr_left
      intro p hp
      have := (K.chain p hp).2.2
      show (c.target p.1, c.target p.2) = (c.target (opposite p.2), c.target p.2)
      unfold Mesh.target
      rw [this]
    rw [e, List.map_snd_zip (by simp)]
    exact (List.rotate_perm _ _).map _
  rw [p.mem_iff, List.mem_map]
  simp only [Prod.mk.injEq]

/-- The sides of a polygon. -/
theorem poly_side (T : Traced m polysS) {f : Nat} {q : List Nat} (hq : polysS[f]? = some q) {u v : Nat} : (u, v) ∈ dirEdges (corners m polysS f) ↔ ∃ g ∈ q, src m g = u ∧ m.target g = v := by
  have p : (dirEdges (q.map m.target)).Perm (q.map (fun g => (src m g, m.target g))) := dirEdges_closed (fun i hi => by
    have := T.closed q (List.mem_of_getElem? hq) i hi
    unfold src
    rw [this]; rfl)
  have e : corners m polysS f = q.map m.target := by unfold corners; rw [List.getD_eq_getElem?_getD, hq]; rfl
  rw [e, p.mem_iff, List.mem_map]
  simp only [Prod.mk.injEq]

/-- The sides of the copy. -/
theorem copy_side (C : Extract.CopyOf d m polysS c vs fs) {i f : Nat} (hf : fs[i]? = some f) :
    (∀ a b, (a, b) ∈ dirEdges (c.verticesAroundFace i) → ∃ u v, vs[a]? = some u ∧ vs[b]? = some v ∧ (u, v) ∈ dirEdges (corners m polysS f)) ∧
    ∀ u v, (u, v) ∈ dirEdges (corners m polysS f) → ∃ a b, (a, b) ∈ dirEdges (c.verticesAroundFace i) ∧ vs[a]? = some u ∧ vs[b]? = some v := by
  have rot := C.faces i f hf
  have hsome : ∀ x ∈ c.verticesAroundFace i, ∃ v, vs[x]? = some v := by
    intro x hx
    have : vs[x]? ∈ (corners m polysS f).map some := rot.perm.subset (List.mem_map.2 ⟨x, hx, rfl⟩)
    obtain ⟨v, -, e⟩ := List.mem_map.1 this
    exact ⟨v, e.symm⟩
  have rot' : (c.verticesAroundFace i).map (fun x => vs.getD x 0) ~r corners m polysS f := by
    have := Split.rotated_map (fun x : Option Nat => x.getD 0) rot
    rw [List.map_map, List.map_map] at this
    have e : (corners m polysS f).map ((fun x : Option Nat => x.getD 0) ∘ some) = corners m polysS f := by simp
    rw [e] at this
    have e2 : (c.verticesAroundFace i).map ((fun x : Option Nat => x.getD 0) ∘ fun x => vs[x]?) = (c.verticesAroundFace i).map (fun x => vs.getD x 0) :=
      List.map_congr_left (fun x _ => by simp [List.getD_eq_getElem?_getD])
    rw [e2] at this
    exact this
  have mem : ∀ a b, (a, b) ∈ dirEdges (c.verticesAroundFace i) → a ∈ c.verticesAroundFace i ∧ b ∈ c.verticesAroundFace i := by
    intro a b h
    unfold dirEdges at h
    obtain ⟨t, ht, e⟩ := List.mem_map.1 h
    rw [List.mem_range] at ht
    have hj : (t + 1) % (c.verticesAroundFace i).length < (c.verticesAroundFace i).length := Nat.mod_lt _ (by omega)
    obtain ⟨e1, e2⟩ := Prod.mk.inj e
    rw [List.getD_eq_getElem?_getD, List.getElem?_eq_getElem ht] at e1
    rw [List.getD_eq_getElem?_getD, List.getElem?_eq_getElem hj] at e2
    exact ⟨by rw [← e1]; exact List.getElem_mem ht, by rw [← e2]; exact List.getElem_mem hj⟩
  constructor
  · intro a b h
    obtain ⟨ha, hb⟩ := mem a b h
    obtain ⟨u, hu⟩ := hsome a ha
    obtain ⟨v, hv⟩ := hsome b hb
    refine ⟨u, v, hu, hv, ?_⟩
    have := dir_rot rot' (dir_map (fun x => vs.getD x 0) h)
    simp only [List.getD_eq_getElem?_getD, hu, hv, Option.getD_some] at this
    exact this
  · intro u v h
    have := dir_rot rot'.symm h
    rw [Split.dirEdges_map] at this
    obtain ⟨⟨a, b⟩, hab, e⟩ := List.mem_map.1 this
    obtain ⟨e1, e2⟩ := Prod.mk.inj e
    obtain ⟨ha, hb⟩ := mem a b hab
    obtain ⟨u', hu⟩ := hsome a ha
    obtain ⟨v', hv⟩ := hsome b hb
    simp only [List.getD_eq_getElem?_getD, hu, hv, Option.getD_some] at e1 e2
    exact ⟨a, b, hab, by rw [hu, e1], by rw [hv, e2]⟩

/-- The other side of an edge: if the polygons have it, the copy has it, too. -/
theorem copy_opposite (hr : Reachable d m) (T : Traced m polysS) (C : Extract.CopyOf d m polysS c vs fs) (link : ∀ f ∈ fs, ∀ g, g < polysS.length → Extract.Linked m polysS f g → g ∈ fs)
    (opp : ∀ f ∈ fs, ∀ q, polysS[f]? = some q → ∀ g ∈ q, ∃ q' ∈ polysS, opposite g ∈ q') {i h : Nat} (hi : LiveF c i) (hh : h ∈ c.fh i) : ∃ j, LiveF c j ∧ opposite h ∈ c.fh j := by
  have W := reachable_wf C.mesh
  have hil : i < fs.length := by
    rw [← C.numF]
    have := hi.1
    simpa [Mesh.numFaces, C.noRemoved.2] using this
  obtain ⟨s1, -⟩ := copy_side C (List.getElem?_eq_getElem hil)
  obtain ⟨u, v, hu, hv, hs⟩ := s1 _ _ ((face_side C.mesh hi).2 ⟨h, hh, rfl, rfl⟩)
  have hfm : fs[i] ∈ fs := List.getElem_mem hil
  have hq : polysS[fs[i]]? = some (polysS[fs[i]]'(C.range _ hfm)) := List.getElem?_eq_getElem _
  obtain ⟨g, g1, g2, g3⟩ := (poly_side T hq).1 hs
  obtain ⟨q', q1, q2⟩ := opp _ hfm _ hq g g1
  obtain ⟨f', f1, rfl⟩ := List.getElem_of_mem q1
  have gl : LiveH m g := T.live _ (List.mem_of_getElem? hq) g g1
  obtain ⟨o1, -, o3, -, -⟩ := src_of hr gl
  have hs' : (v, u) ∈ dirEdges (corners m polysS f') := (poly_side T (List.getElem?_eq_getElem f1)).2 ⟨_, q2, by rw [o3, g3], by rw [← o1, g2]⟩
  have f'm : f' ∈ fs := by
    refine link _ hfm f' f1 ⟨u, u, ?_, ?_, .refl _⟩
    · unfold dirEdges at hs
      obtain ⟨t, ht, e⟩ := List.mem_map.1 hs
      rw [List.mem_range] at ht
      rw [← (Prod.mk.inj e).1, List.getD_eq_getElem?_getD, List.getElem?_eq_getElem ht]
      exact List.getElem_mem ht
    · unfold dirEdges at hs'
      obtain ⟨t, ht, e⟩ := List.mem_map.1 hs'
      rw [List.mem_range] at ht
      have hj : (t + 1) % (corners m polysS f').length < (corners m polysS f').length := Nat.mod_lt _ (by omega)
      rw [← (Prod.mk.inj e).2, List.getD_eq_getElem?_getD, List.getElem?_eq_getElem hj]
      exact List.getElem_mem hj
  obtain ⟨j, hj, hje⟩ := List.getElem_of_mem f'm
  have hjl : LiveF c j := by
    have := C.numF
    refine ⟨?_, by rw [C.noRemoved.2]; simp⟩
    have h0 : c.numFaces = c.nF := by simp [Mesh.numFaces, C.noRemoved.2]
    omega
  obtain ⟨-, s2⟩ := copy_side C (i := j) (f := f') (by rw [List.getElem?_eq_getElem hj, hje])
  obtain ⟨b, a, hba, hb, ha⟩ := s2 v u hs'
  obtain ⟨h', h1, h2, h3⟩ := (face_side C.mesh hjl).1 hba
  have inj : ∀ x y w : Nat, vs[x]? = some w → vs[y]? = some w → x = y := fun x y w hx hy => (List.getElem?_inj (List.getElem?_eq_some_iff.1 hx).1 C.vsNodup).1 (hx.trans hy.symm)
  have ea := inj _ _ _ ha hu
  have eb := inj _ _ _ hb hv
  have hl : LiveH c h := ((W.faceOK hi).mem h hh).1
  have hl' : LiveH c h' := ((W.faceOK hjl).mem h' h1).1
  have hlo := (src_of C.mesh hl).2.2.2.2
  refine ⟨j, hjl, ?_⟩
  have : opposite h = h' := C.single _ _ hlo hl' (by rw [opp_back, h2, eb]) (by rw [h3, ea])
  rw [this]; exact h1

/-- A component all of whose edges have polygons on both sides is closed. -/
theorem copy_closed (hr : Reachable d m) (T : Traced m polysS) (C : Extract.CopyOf d m polysS c vs fs) (link : ∀ f ∈ fs, ∀ g, g < polysS.length → Extract.Linked m polysS f g → g ∈ fs)
    (opp : ∀ f ∈ fs, ∀ q, polysS[f]? = some q → ∀ g ∈ q, ∃ q' ∈ polysS, opposite g ∈ q') : c.isClosed = true := by
  have W := reachable_wf C.mesh
  rw [C49_closed_iff C.mesh]
  intro e he
  have l0 : LiveH c (halfedgeOf e 0) := (W.liveH_iff _).2 (by rwa [halfedgeOf, show (e * 2 + 0) / 2 = e by omega])
  have o0 : opposite (halfedgeOf e 0) = halfedgeOf e 1 := by unfold opposite halfedgeOf; split <;> omega
  have o1 : opposite (halfedgeOf e 1) = halfedgeOf e 0 := by rw [← o0, opp_back]
  rcases C.edges _ l0 with ⟨f, hf, h1⟩ | ⟨f, hf, h1⟩
  · obtain ⟨g, hg, h2⟩ := copy_opposite hr T C link opp hf h1
    rw [o0] at h2
    exact ⟨f, g, hf, hg, h1, h2⟩
  · rw [o0] at h1
    obtain ⟨g, hg, h2⟩ := copy_opposite hr T C link opp hf h1
    rw [o1] at h2
    exact ⟨g, f, hg, hf, h2, h1⟩

/-- If both meshes have no border, every edge of the stitched polygons has a polygon on each side. -/
theorem StitchedOf.watertight (T : StitchedOf d m0 base numCut n source polys pats ks m1 polys1 ver orig m polysS faces cmv at' half made) (V : SplitOf d m0 base numCut source m1 polys1 ver orig)
    (X : Sheets m0 numCut polys pats ks) (sc : ∀ h, In source h → numCut ≤ h → In source (opposite h)) (cc : ∀ k ∈ ks, ∀ h, InSheet polys pats k h → numCut ≤ h → InSheet polys pats k (opposite h))
    (even : numCut % 2 = 0) {q : List Nat} (hq : q ∈ polysS) {g : Nat} (hg : g ∈ q) : ∃ q' ∈ polysS, opposite g ∈ q' := by
  obtain ⟨news, e1, e2⟩ := id T.polygons
  have src' : ∀ h, In source h → ∃ q' ∈ polysS, ver h ∈ q' := by
    rintro h ⟨p, hp, hh⟩
    refine ⟨p.map ver, ?_, List.mem_map.2 ⟨h, hh, rfl⟩⟩
    rw [e1, V.polygons]
    exact List.mem_append_left _ (List.mem_map.2 ⟨p, hp, rfl⟩)
  have patch' : ∀ k ∈ ks, ∀ h, InSheet polys pats k h → ∃ q' ∈ polysS, half k h ∈ q' := by
    rintro k hk h ⟨l, j, p, h1, h2, h3, h4⟩
    have hm : (k, j) ∈ made := T.all.mem_iff.2 (List.mem_flatMap.2 ⟨k, hk, List.mem_map.2 ⟨j, by rw [List.getD_eq_getElem?_getD, h1]; exact h2, rfl⟩⟩)
    obtain ⟨a, ha, hae⟩ := List.getElem_of_mem hm
    have hl := e2.length_eq
    obtain ⟨p', r, r1, r2, r3⟩ := (List.forall₂_iff_get.1 e2).2 a ha (by omega)
    simp only [List.get_eq_getElem, hae] at r1 r3
    rw [h3] at r1
    obtain rfl := Option.some.inj r1
    refine ⟨news[a]'(by omega), by rw [e1]; exact List.mem_append_right _ (List.getElem_mem _), ?_⟩
    rw [r3]
    exact List.mem_map.2 ⟨h, r2.perm.mem_iff.2 h4, rfl⟩
  have lt : ∀ h, h < numCut → opposite h < numCut := by
    intro h hh
    unfold opposite; split <;> omega
  rw [e1] at hq
  rcases List.mem_append.1 hq with hq | hq
  · rw [V.polygons] at hq
    obtain ⟨p, hp, rfl⟩ := List.mem_map.1 hq
    obtain ⟨h, hh, rfl⟩ := List.mem_map.1 hg
    have hin : In source h := ⟨p, hp, hh⟩
    by_cases hc : h < numCut
    · obtain ⟨k, hk, hs⟩ := X.cover (opposite h) (lt h hc)
      have := (T.sealed k hk _ hs (lt h hc)).2
      rw [opp_back] at this
      rw [← this]
      exact patch' k hk _ hs
    · rw [← V.together h hin (sc h hin (by omega)) (by omega)]
      exact src' _ (sc h hin (by omega))
  · obtain ⟨i, hi, rfl⟩ := List.getElem_of_mem hq
    obtain ⟨a, k, j, l, p, r, -, -, hk, -, -, -, -, hr', hin, -⟩ := T.new X (i := polys1.length + i) (by omega) (by rw [e1, List.getElem?_append_right (by omega), Nat.add_sub_cancel_left, List.getElem?_eq_getElem hi])
    rw [hr'] at hg
    obtain ⟨h, hh, rfl⟩ := List.mem_map.1 hg
    have hs := hin h hh
    by_cases hc : h < numCut
    · obtain ⟨s1, s2⟩ := T.sealed k hk h hs hc
      rw [s2, opp_back]
      exact src' _ s1
    · have ho := cc k hk h hs (by omega)
      rw [← T.together k hk h hs ho]
      exact patch' k hk _ ho

end Mcut.Stitch
