import Verif.Lemmas.C84Main
import Verif.Lemmas.C84Sheets
import Verif.Props.C60

/-!
# Lemmas for C84: the tables for the maps, and meshes without border
-/
namespace Mcut.Stitch
open Mcut.Hmesh Mcut.Extract Mcut.Preproc
open Mcut.Split (In SplitOf src_some)
open Mcut.Trace (src src_of SimpleEdges joins_half eq_of_ends)
variable {P : Type} {d : P} {m0 m1 m : Mesh P} {base numCut n : Nat} {source polys pats polys1 polysS : List (List Nat)} {ks : List Nat} {ver orig : Nat → Nat} {faces cmv : List (Nat × Nat)}
  {at' half : Nat → Nat → Nat} {made : List (Nat × Nat)} {sm cs : Mesh P} {junk : Nat} {threads : Option Nat} {S : Soup P}

/-- The vertex map. -/
theorem StitchedOf.vertexTable (I : Intact d sm) (J : Intact d cs) (hv : ValidMesh cs.numVertices (Extract.polygons cs)) (hs : Sizes sm cs threads) (hS : soup junk sm cs threads = some S)
    (I0 : Intact d m0) (hb : base = sm.numVertices + cs.numVertices) (hle : base ≤ m0.nV) (V : SplitOf d m0 base numCut source m1 polys1 ver orig)
    (T : StitchedOf d m0 base numCut n source polys pats ks m1 polys1 ver orig m polysS faces cmv at' half made) (faceOf2 : Nat → Option Nat) :
    VertexTable m0 base m1.nV polys pats ks at' m (S.tablesM1 sm (copyM0 d junk m0).2 cmv faces (copyVertices d S.ps).2 faceOf2) := by
  intro v hvm
  have key := C60_origin_m1 junk I J hv threads hs S hS m0 I0 (by rw [I0.numV]; omega) cmv faces (fun q hq => by rw [← hb]; exact (T.entries q hq).1) faceOf2 v
  rw [I0.numV, ← hb] at key
  have k1 := V.kept.1
  refine ⟨_, key, ?_, ?_, ?_⟩
  · intro h
    rw [if_pos (by omega), if_pos h]
  · intro h1 h2
    by_cases h : v < m0.nV
    · rw [if_pos h, if_neg (by omega)]
    · rw [if_neg h, Option.map_eq_none_iff, List.find?_eq_none]
      intro e he
      have := T.entries e he
      simp only [beq_iff_eq]
      rintro rfl
      rcases this.2.1 with h3 | h3 <;> omega
  · intro u hu
    by_cases h : v < m0.nV
    · rw [if_pos h] at hu
      by_cases h' : v < base
      · rw [if_pos h'] at hu
        obtain rfl := Option.some.inj hu
        refine ⟨h', ?_, ?_⟩
        · rw [T.kept.2.1 v (by omega), V.places v (by omega), V.kept.2 v h]
        · intro k hk x hx e
          by_cases hb' : m0.target x < base
          · by_cases hn : k < n
            · rw [← T.same k hk hn _ hb', e]
            · have := (T.copies k hk (by omega) x hx hb').1
              omega
          · have := (T.points k hk x hx (by omega)).1
            omega
      · rw [if_neg h'] at hu; cases hu
    · rw [if_neg h, Option.map_eq_some_iff] at hu
      obtain ⟨e, e1, rfl⟩ := hu
      have hm := List.mem_of_find?_eq_some e1
      have he := List.find?_some e1
      simp only [beq_iff_eq] at he
      obtain ⟨q1, -, -, q4, q5⟩ := T.entries e hm
      rw [he] at q4 q5
      exact ⟨q1, q4, q5⟩

/-- The face map. -/
theorem StitchedOf.faceOrigin (I : Intact d sm) (J : Intact d cs) (hv : ValidMesh cs.numVertices (Extract.polygons cs)) (hs : Sizes sm cs threads) (hS : soup junk sm cs threads = some S)
    (T : StitchedOf d m0 base numCut n source polys pats ks m1 polys1 ver orig m polysS faces cmv at' half made) {faceOf2 : Nat → Option Nat}
    {m1m0 m0ps : List Nat} {f j : Nat} (hlt : ∀ g, faceOf2 j = some g → g < sm.numFaces + cs.numFaces) (hf : (f, j) ∈ faces) (hj : faceOf2 j ≠ none) :
    Extract.faceOrigin (S.tablesM1 sm m1m0 cmv faces m0ps faceOf2) 0 f = faceOf2 j := by
  obtain ⟨S', hS', M, -, -, t3, t4⟩ := C60_soup junk I J hv threads hs
  rw [hS] at hS'; injection hS' with hS'; subst hS'
  have fn : ∀ i a b, (i, a) ∈ faces → (i, b) ∈ faces → a = b := by
    intro i a b h1 h2
    rcases (T.faces i a).1 h1 with ⟨x1, x2⟩ | ⟨y, z, x1, x2, x3⟩ <;> rcases (T.faces i b).1 h2 with ⟨w1, w2⟩ | ⟨y', z', w1, w2, w3⟩
    · omega
    · omega
    · omega
    · have : y = y' := by omega
      subst this
      rw [x2] at w2
      rw [x3, w3, Option.some.inj w2]
  have hfind : (faces.find? (fun q => q.1 == 0 + f)) = some (f, j) := by
    have : (faces.find? (fun q => q.1 == 0 + f)).isSome := by
      rw [List.find?_isSome]
      exact ⟨(f, j), hf, by simp⟩
    obtain ⟨e, he⟩ := Option.isSome_iff_exists.1 this
    have h1 := List.mem_of_find?_eq_some he
    have h2 := List.find?_some he
    simp only [beq_iff_eq, Nat.zero_add] at h2
    obtain ⟨e1, e2⟩ := e
    simp only at h2
    subst h2
    rw [he, fn _ _ _ h1 hf]
  obtain ⟨g, hg⟩ := Option.ne_none_iff_exists'.1 hj
  unfold Extract.faceOrigin Soup.tablesM1
  simp only
  rw [if_pos (List.length_pos_of_mem hf), hfind]
  simp only [Option.map_some, Option.bind_some, hg]
  have hlt' := hlt g hg
  by_cases h : g ≥ sm.numFaces
  · rw [if_pos h]
    have := t4 (g - sm.numFaces) (by omega)
    rw [show sm.numFaces + (g - sm.numFaces) = g by omega] at this
    rw [this]; simp; omega
  · rw [if_neg h]
    exact t3 g (by omega)

/-- The sides of a face without border have another side. -/
theorem closed_side (hr : Reachable d m) (hc : m.isClosed = true) {f u v : Nat} (hf : LiveF m f) (h : (u, v) ∈ dirEdges (m.verticesAroundFace f)) : ∃ g, LiveF m g ∧ (v, u) ∈ dirEdges (m.verticesAroundFace g) := by
  obtain ⟨x, x1, rfl, rfl⟩ := (face_side hr hf).1 h
  have W := reachable_wf hr
  have hl := ((W.faceOK hf).mem x x1).1
  have he : LiveE m (edgeOf x) := (W.liveH_iff x).1 hl
  obtain ⟨f1, f2, l1, l2, m1, m2⟩ := (C49_closed_iff hr).1 hc _ he
  have ho : ∃ g, LiveF m g ∧ opposite x ∈ m.fh g := by
    rcases Mcut.Trace.half_of (rfl : edgeOf x = edgeOf x) with e | e
    · refine ⟨f2, l2, ?_⟩
      have : opposite x = halfedgeOf (edgeOf x) 1 := by
        rw [e]; unfold opposite halfedgeOf edgeOf; rw [if_pos (by omega)]; omega
      rw [this]; exact m2
    · refine ⟨f1, l1, ?_⟩
      have : opposite x = halfedgeOf (edgeOf x) 0 := by
        rw [e]; unfold opposite halfedgeOf edgeOf; rw [if_neg (by omega)]; omega
      rw [this]; exact m1
  obtain ⟨g, g1, g2⟩ := ho
  exact ⟨g, g1, (face_side hr g1).2 ⟨_, g2, by rw [opp_back], rfl⟩⟩

/-- The other halfedge has a face, if a face has this side in the other direction. -/
theorem other_face (hr : Reachable d m) (one : SimpleEdges m) {h f g : Nat} (hh : h ∈ m.fh f) (hf : LiveF m f) (hg : LiveF m g)
    (hs : (m.target h, m.target (opposite h)) ∈ dirEdges (m.verticesAroundFace g)) : m.face (opposite h) ≠ none := by
  have W := reachable_wf hr
  obtain ⟨y, y1, y2, y3⟩ := (face_side hr hg).1 hs
  have hl := ((W.faceOK hf).mem h hh).1
  obtain ⟨yl, yf⟩ := (W.faceOK hg).mem y y1
  obtain ⟨o1, -, o3, -, o5⟩ := src_of hr hl
  have ys := (src_of hr yl).1
  have e : edgeOf (opposite h) = edgeOf y := by
    refine one _ _ _ _ ((W.liveH_iff _).1 o5) ((W.liveH_iff _).1 yl) (joins_half hr o5) ?_
    have := joins_half hr yl
    rw [ys, y2, y3] at this
    rw [o3]
    exact this
  have : opposite h = y := eq_of_ends hr o5 e (by rw [o3, ys, y2])
  rw [this]
  unfold Mesh.face
  rw [yf]; simp

/-- If the source mesh has no border, its faces have none in the merged mesh. -/
theorem merge_closed_source (M : MergeOf d sm cs m) (I : Intact d sm) (one : SimpleEdges m) (hc : sm.isClosed = true) : ∀ h f, m.face h = some f → f < sm.numFaces → LiveH m h → m.face (opposite h) ≠ none := by
  intro h f hf hlt hl
  have hr := M.intact.reach
  rcases (reachable_wf hr).h_face h f hl hf with ⟨h1, -⟩ | ⟨-, hfl, hh⟩
  · exact absurd h1 (by have := M.numF; have := M.intact.numF; omega)
  have hs := (face_side hr hfl).2 ⟨h, hh, rfl, rfl⟩
  rw [M.smFaces f hlt] at hs
  have live : ∀ {g}, LiveF sm g ↔ g < sm.numFaces := by
    intro g
    unfold LiveF Live
    rw [I.noRemoved.2, I.numF]; simp
  obtain ⟨g, g1, g2⟩ := closed_side I.reach hc (live.2 hlt) hs
  rw [← M.smFaces g (live.1 g1)] at g2
  refine other_face hr one hh hfl ⟨?_, by rw [M.intact.noRemoved.2]; simp⟩ g2
  have := live.1 g1
  rw [← M.intact.numF, M.numF]; omega

/-- If the cut mesh has no border, its faces have none in the merged mesh. -/
theorem merge_closed_cut (M : MergeOf d sm cs m) (J : Intact d cs) (one : SimpleEdges m) (hc : cs.isClosed = true) : ∀ h f, m.face h = some f → sm.numFaces ≤ f → LiveH m h → m.face (opposite h) ≠ none := by
  intro h f hf hlt hl
  have hr := M.intact.reach
  have hnF := M.numF
  have hnF' := M.intact.numF
  have hfl : LiveF m f ∧ h ∈ m.fh f := by
    rcases (reachable_wf hr).h_face h f hl hf with ⟨h1, h2⟩ | ⟨-, h3, h4⟩
    · cases h2
    · exact ⟨h3, h4⟩
  obtain ⟨hfl, hh⟩ := hfl
  have hlt' := hfl.1
  have hs := (face_side hr hfl).2 ⟨h, hh, rfl, rfl⟩
  have live : ∀ {g}, LiveF cs g ↔ g < cs.numFaces := by
    intro g
    unfold LiveF Live
    rw [J.noRemoved.2, J.numF]; simp
  have rot := M.cmFaces (f - sm.numFaces) (by omega)
  rw [show sm.numFaces + (f - sm.numFaces) = f by omega] at rot
  have hs2 := Mcut.Trace.dir_rot rot hs
  rw [Split.dirEdges_map] at hs2
  obtain ⟨⟨a, b⟩, hab, e⟩ := List.mem_map.1 hs2
  obtain ⟨e1, e2⟩ := Prod.mk.inj e
  obtain ⟨g, g1, g2⟩ := closed_side J.reach hc (live.2 (by omega)) hab
  have g3 := Mcut.Trace.dir_rot (M.cmFaces g (live.1 g1)).symm (Mcut.Trace.dir_map (fun v => v + sm.numVertices) g2)
  simp only at e1 e2
  refine other_face hr one hh hfl (g := sm.numFaces + g) ⟨?_, by rw [M.intact.noRemoved.2]; simp⟩ (by rw [← e1, ← e2]; exact g3)
  have := live.1 g1
  omega

end Mcut.Stitch

namespace Mcut.Patches
open Mcut.Hmesh Mcut.Extract Mcut.Registry Mcut.CutEdges Mcut.Boundary Mcut.Trace Mcut.Split Mcut.CutPaths
variable {P : Type} {d : P} {ps : Mesh P} {base : Nat} {pts : Nat → List Nat} {sort : Nat → Nat → List Nat → List Nat} {edges : List Nat} {c : CutEdges.St P} {st : Boundary.St P}
  {pieces : Nat → List Nat} {reg : List (Nat × Nat)} {smV smF n : Nat} {o : Out} {T : Nat → List Nat} {poly : Nat → List (List Nat)}
  {pats : List (List Nat)} {table starts : List (Nat × Nat)} {ord : List Nat} {two : Two} {news : List (List Nat)} {out : Nat → Prop}

/-- The polygons of the patches are polygons of the cut mesh, as they are or reversed. -/
theorem CutFacts.faceTable (C : CutFacts d ps smV smF base pts sort edges c st pieces reg n o T poly) (PS : PatchesOf o.polygons o.smCount (2 * c.m0.nE) pats) (D : Doubled o T pats table ord two news)
    {cl ks : List Nat} (K : Kinds pats ord two news cl ks) (hle : o.smCount ≤ o.polygons.length) : Stitch.FaceTable st.m0 pats.length o.smCount o.polygons two.polys two.patches ks o.faceOf two.faceOf := by
  constructor
  · intro f hf
    refine ⟨?_, D.faces.1 f (by omega)⟩
    obtain ⟨g, g1, -⟩ := C.F.face_lt (List.getElem?_eq_getElem (show f < o.polygons.length by omega)) hf
    rw [g1]; simp
  · intro k hk l hl j hj
    rcases K.kind k hk with ⟨-, l0, h1, h2⟩ | ⟨a, k0, l0, l', e, h1, -, h2, h3, h4⟩
    · rw [hl] at h2; obtain rfl := Option.some.inj h2
      obtain ⟨a1, a2⟩ := (PS.whole l (List.mem_of_getElem? h1)).2.1 j hj
      have hp := List.getElem?_eq_getElem a2
      obtain ⟨f, f1, -⟩ := C.face a1 hp
      obtain ⟨R, -, L, -⟩ := C.polyC a1 hp
      refine ⟨j, _, a1, hp, by rw [f1]; simp, D.faces.1 j a2, fun _ => by rw [D.polys j a2, hp], fun h => ?_, R, L⟩
      have := (List.getElem?_eq_some_iff.1 h1).1
      omega
    · rw [hl] at h4; obtain rfl := Option.some.inj h4
      obtain ⟨l1, q1, q2, -⟩ := D.at h1 h3
      rw [h2] at q1; obtain rfl := Option.some.inj q1
      have q3 := D.faces.2 a k0 l0 l h1 h2 h3
      obtain ⟨b, hb, rfl⟩ := List.getElem_of_mem hj
      have hlen := q2.length_eq
      obtain ⟨p, p1, p2⟩ := (List.forall₂_iff_get.1 q2).2 b (by omega) hb
      obtain ⟨r1, r2⟩ := (List.forall₂_iff_get.1 q3).2 b (by omega) hb
      simp only [List.get_eq_getElem] at p1 p2 r1 r2
      have a1 := ((PS.whole l0 (List.mem_of_getElem? h2)).2.1 (l0[b]'(by omega)) (List.getElem_mem _)).1
      obtain ⟨R, -, L, -⟩ := C.polyC a1 p1
      refine ⟨_, p, a1, p1, ?_, r1, fun h => by omega, fun _ => p2, R, L⟩
      intro h0
      rw [h0] at r2; cases r2

end Mcut.Patches
