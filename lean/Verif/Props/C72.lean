import Verif.Lemmas.C72
import Verif.Props.C60
import Verif.Props.C71

/-! # C72: two vertices are joined by at most one edge -/
namespace Mcut.Hmesh
open Mcut.Preproc Mcut.Extract Mcut.Trace
variable {P : Type} {d : P}

/-- **C72.** In every mesh that is made by legal operations, in which edges are only added where there is none yet, two vertices are joined by at most one edge. -/
theorem C72_simple {m : Mesh P} (h : Careful d m) : SimpleEdges m := h.uniq.simple (reachable_wf h.reach)

/-- **C72 (lookup).** In such a mesh, looking up a halfedge by its two ends finds the only one there is. -/
theorem C72_lookup {m : Mesh P} (h : Careful d m) (s t : Nat) (hst : s ≠ t) (x : Nat) :
    m.halfedge s t true = some x ↔ LiveH m x ∧ m.source x = some s ∧ m.target x = t := by
  have W := reachable_wf h.reach
  constructor
  · intro e
    obtain ⟨h1, h2, h3⟩ := halfedge_some W s t hst x e
    exact ⟨h1, by rw [W.source h1, h2], h3⟩
  · rintro ⟨h1, h2, h3⟩
    cases e : m.halfedge s t true with
    | none => exact absurd h3 ((halfedge_none W s t hst).1 e x h1 h2)
    | some y =>
      obtain ⟨l1, l2, l3⟩ := halfedge_some W s t hst y e
      rw [W.source h1, Option.some.injEq] at h2
      rw [h.uniq y x l1 h1 (l2.trans h2.symm) (l3.trans h3.symm)]

/-- **C72 (loader).** The meshes that the loader makes of the client's arrays are of this kind. -/
theorem C72_loaded (a : Arrays) (pts : List P) (env : LoadEnv) (w : a.WellSized) (hp : pts.length = a.numVertices) (L : LoadOk a env) (m : Mesh P)
    (hm : loadArrays d a pts env = .mesh m) : Careful d m := by
  have hv : ValidMesh a.numVertices a.faces := by
    rcases C33_accepts_iff d a pts env w hp L with ⟨_, h⟩ | ⟨h, _⟩
    · exact h
    · rw [h] at hm; cases hm
  have C := (load_cases (d := d) w hp L).1 (fun f hf => hv.1 _ (List.mem_of_getElem? (w.face f hf).1))
  rw [hm] at C
  by_cases hr : (addFaces (addVertices (Mesh.empty d) pts) a.faces).2 = true
  · rw [if_pos hr] at C
    injection C with C
    rw [C]
    have B := built_vertices d pts
    have V : ∀ (l : List P) (m : Mesh P), Careful d m → Careful d (addVertices m l) := by
      intro l
      induction l with
      | nil => intro m h; exact h
      | cons p l ih => intro m h; exact ih _ (.step m (.addVertex p) h trivial (by intro _ _ e; cases e))
    refine Careful.addFaces _ _ (V pts _ .empty) (fun f hf => ?_) hr
    obtain ⟨h1, h2, h3⟩ := hv.1 f hf
    exact ⟨h1, h2, fun v hv' => (B.liveV v).2 (by rw [hp]; exact h3 v hv')⟩
  · rw [if_neg hr] at C; cases C

/-- **C72 (merged mesh).** So is the mesh into which source mesh and cut mesh are merged. -/
theorem C72_soup {sm cs : Mesh P} (junk : Nat) (C : Careful d sm) (I : Intact d sm) (J : Intact d cs) (hv : ValidMesh cs.numVertices (polygons cs)) (threads : Option Nat)
    (hs : Sizes sm cs threads) (S : Soup P) (e : soup junk sm cs threads = some S) : Careful d S.ps := by
  rw [J.numV] at hv
  unfold soup at e
  rw [parOrder_ok sm.numVertices threads (fun t h => ⟨(hs t h).1, (hs t h).2.1⟩), parOrder_ok sm.numFaces threads (fun t h => ⟨(hs t h).1, (hs t h).2.2.1⟩),
    parOrder_ok cs.numFaces threads (fun t h => ⟨(hs t h).1, (hs t h).2.2.2⟩)] at e
  simp only [Option.bind_some, Option.map_eq_some_iff] at e
  obtain ⟨r, e, rfl⟩ := e
  obtain ⟨B, -, -⟩ := mergeVertices_spec I J (List.replicate (sm.numVertices + cs.numVertices) junk) (by simp [I.numV, J.numV])
  have V : Careful d (mergeVertices cs (sm, List.replicate (sm.numVertices + cs.numVertices) junk)).1 := mergeVertices_careful cs _ _ C
  refine mergeFaces_careful cs sm.numVertices _ (_, List.replicate (sm.numFaces + cs.numFaces) junk) r V e ?_
  intro i hi
  have hi' : i < cs.nF := by rw [List.mem_range, J.numF] at hi; exact hi
  have G := hv.1 (cs.verticesAroundFace i) (List.mem_map.2 ⟨i, hi, rfl⟩)
  refine ⟨G.1, G.2.1, fun v hv' => ?_⟩
  have := G.2.2 v hv'
  refine ⟨?_, by rw [B.vRem]; simp⟩
  rw [B.nV, I.numV]; omega

/-- The condition on `add_edge` is needed: nothing stops two calls with the same vertices from making two edges. -/
theorem C72_add_edge_fails : ∃ m : Mesh Unit, Reachable () m ∧ ¬ SimpleEdges m := by
  let m0 : Mesh Unit := ((Mesh.empty ()).addVertex ()).1
  let m1 := (m0.addVertex ()).1
  let m2 := (m1.addEdge 0 1).1
  let m3 := (m2.addEdge 0 1).1
  have lv : ∀ v, v < 2 → LiveV m1 v := fun v hv => ⟨hv, by simp [m1, m0, Mesh.addVertex, Mesh.empty]⟩
  have lv2 : ∀ v, v < 2 → LiveV m2 v := fun v hv => ⟨hv, by rw [show m2.vRem = [] from by decide +kernel]; simp⟩
  refine ⟨m3, .step m2 (.addEdge 0 1) (.step m1 (.addEdge 0 1) (.step m0 (.addVertex ()) (.step _ (.addVertex ()) .empty trivial) trivial)
    ⟨lv 0 (by omega), lv 1 (by omega), by omega⟩) ⟨lv2 0 (by omega), lv2 1 (by omega), by omega⟩, ?_⟩
  intro h
  have l : ∀ e, e < 2 → LiveE m3 e := fun e he => ⟨he, by rw [show m3.eRem = [] from by decide +kernel]; simp⟩
  have := h 0 1 1 0 (l 0 (by omega)) (l 1 (by omega)) (Or.inl ⟨by decide, by decide⟩) (Or.inl ⟨by decide, by decide⟩)
  omega

/-- The hypotheses are met: two triangles with a common edge (edge 2, between the vertices 2 and 0), made by the operations of the mesh. -/
theorem C72_demo : ∃ m : Mesh Unit, Careful () m ∧ m.numEdges = 5 ∧ m.halfedge 2 0 true = some 4 ∧ m.halfedge 0 2 true = some 5 ∧ SimpleEdges m := by
  let V := fun m : Mesh Unit => (m.addVertex ()).1
  let m0 := V (V (V (V (Mesh.empty ()))))
  have c0 : Careful () m0 := by
    have s : ∀ m, Careful () m → Careful () (V m) := fun m h => .step m (.addVertex ()) h trivial (by intro _ _ e; cases e)
    exact s _ (s _ (s _ (s _ .empty)))
  have lv : ∀ v, v < 4 → LiveV m0 v := fun v hv => ⟨hv, by rw [show m0.vRem = [] from by decide +kernel]; simp⟩
  let m1 := (m0.addFace [0, 1, 2]).1
  have c1 : Careful () m1 := .step m0 (.addFace [0, 1, 2]) c0 ⟨nodup_good (by decide) (by decide) (fun v hv => lv v (by simp at hv; omega)), by decide +kernel⟩ (by intro _ _ e; cases e)
  have lv1 : ∀ v, v < 4 → LiveV m1 v := fun v hv => ⟨by rw [show m1.nV = 4 from by decide +kernel]; exact hv, by rw [show m1.vRem = [] from by decide +kernel]; simp⟩
  have c2 : Careful () (m1.addFace [0, 2, 3]).1 :=
    .step m1 (.addFace [0, 2, 3]) c1 ⟨nodup_good (by decide) (by decide) (fun v hv => lv1 v (by simp at hv; omega)), by decide +kernel⟩ (by intro _ _ e; cases e)
  exact ⟨_, c2, by decide +kernel, by decide +kernel, by decide +kernel, C72_simple c2⟩

end Mcut.Hmesh
