import Verif.Lemmas.C75
import Verif.Props.C32

/-! C75: the winding number as a sum over triangles. -/
namespace Mcut.Winding
open Mcut.Hmesh Mcut.Dispatch

theorem foldl_add {α : Type} (g : α → ℝ) : ∀ (l : List α) (a : ℝ), l.foldl (fun w x => w + g x) a = a + (l.map g).sum
  | [], a => by simp
  | x :: l, a => by rw [List.foldl_cons, foldl_add g l, List.map_cons, List.sum_cons]; ring

/-- The argument of a triangle of the mesh seen from `q`. -/
noncomputable def turn (b : Body) (q : Vec) (t : Nat × Nat × Nat) : ℝ := (Z (sub (b.mesh.pos t.1) q) (sub (b.mesh.pos t.2.1) q) (sub (b.mesh.pos t.2.2) q)).arg

theorem faces_eq (m : Mesh Vec) : faces m = (List.range m.nF).filter (fun f => decide (f ∉ m.fRem)) := (C32_enumeration m).2.2.2

theorem mem_faces {m : Mesh Vec} {f : Nat} : f ∈ faces m ↔ LiveF m f := by rw [faces_eq]; simp [LiveF, Live]

theorem triples_eq (vs l : List Nat) : triples (cdtGlobal vs l) = (List.range (l.length / 3)).map (fun i =>
    (vs.getD (l.getD (3 * i) 0) 0, vs.getD (l.getD (3 * i + 1) 0) 0, vs.getD (l.getD (3 * i + 2) 0) 0)) := by
  unfold triples cdtGlobal
  rw [List.length_map]
  apply List.map_congr_left
  intro i hi
  rw [List.mem_range] at hi
  have g : ∀ k, k < l.length → (l.map (fun i => vs.getD i 0)).getD k 0 = vs.getD (l.getD k 0) 0 := by
    intro k hk
    simp [List.getD_eq_getElem?_getD, List.getElem?_eq_getElem hk]
  rw [g _ (by omega), g _ (by omega), g _ (by omega), show i * 3 + 0 = 3 * i by omega, show i * 3 + 1 = 3 * i + 1 by omega, show i * 3 + 2 = 3 * i + 2 by omega]

theorem quad_013 {a b c d q : Vec} (h : InTriangle a b d q) : InQuad a b c d q := by
  obtain ⟨α, β, γ, h1, h2, h3, h4, rfl⟩ := h
  exact ⟨α, β, 0, γ, h1, h2, le_refl _, h3, by linarith, by ext <;> simp⟩

theorem quad_123 {a b c d q : Vec} (h : InTriangle b c d q) : InQuad a b c d q := by
  obtain ⟨α, β, γ, h1, h2, h3, h4, rfl⟩ := h
  exact ⟨0, α, β, γ, le_refl _, h1, h2, h3, by linarith, by ext <;> simp⟩

theorem tri_onFace {b : Body} {f : Nat} {q : Vec} {t : Nat × Nat × Nat} (ht : t ∈ trianglesOf b f) (h : InTriangle (b.mesh.pos t.1) (b.mesh.pos t.2.1) (b.mesh.pos t.2.2) q) :
    OnFace b f q := by
  unfold OnFace
  split
  · rename_i h4
    unfold trianglesOf at ht
    rw [if_neg (by omega), if_pos h4] at ht
    simp only [List.mem_cons, List.not_mem_nil, or_false] at ht
    rcases ht with rfl | rfl
    · exact quad_013 h
    · exact quad_123 h
  · exact ⟨t, ht, h⟩

theorem onFace_eq {b : Body} {d : Vec} (hr : Reachable d b.mesh) {f : Nat} (hf : LiveF b.mesh f) {q : Vec} (h : ¬OnFace b f q) :
    onFace b.cdt b.mesh q f = ((trianglesOf b f).map (fun t => turn b q t / (2 * Real.pi))).sum := by
  have len : 3 ≤ (b.mesh.verticesAroundFace f).length := by
    have := ((reachable_wf hr).faceOK hf).len
    unfold Mesh.verticesAroundFace; rw [List.length_map]; exact this
  unfold onFace
  simp only
  by_cases h4 : (b.mesh.verticesAroundFace f).length > 4
  · rw [if_pos h4, foldl_add, zero_add, triples_eq]
    have et : trianglesOf b f = (List.range ((b.cdt f).length / 3)).map (fun i =>
        (corner b.mesh f ((b.cdt f).getD (3 * i) 0), corner b.mesh f ((b.cdt f).getD (3 * i + 1) 0), corner b.mesh f ((b.cdt f).getD (3 * i + 2) 0))) := by
      unfold trianglesOf; rw [if_neg (by omega), if_neg (by omega)]
    have et' : (List.range ((b.cdt f).length / 3)).map (fun i => ((b.mesh.verticesAroundFace f).getD ((b.cdt f).getD (3 * i) 0) 0, (b.mesh.verticesAroundFace f).getD ((b.cdt f).getD (3 * i + 1) 0) 0,
        (b.mesh.verticesAroundFace f).getD ((b.cdt f).getD (3 * i + 2) 0) 0)) = trianglesOf b f := by rw [et]; rfl
    rw [et']
    congr 1
    apply List.map_congr_left
    intro t ht
    exact solidTri_eq (fun e => h (tri_onFace ht e))
  · rw [if_neg h4]
    by_cases h4' : (b.mesh.verticesAroundFace f).length = 4
    · rw [if_pos h4', zero_add]
      unfold OnFace at h
      rw [if_pos h4'] at h
      unfold trianglesOf
      rw [if_neg (by omega), if_pos h4']
      rw [List.map_cons, List.map_cons, List.map_nil, List.sum_cons, List.sum_cons, List.sum_nil, add_zero]
      exact solidQuad_eq h
    · have h3 : (b.mesh.verticesAroundFace f).length = 3 := by omega
      rw [if_neg h4', zero_add]
      have et : trianglesOf b f = [(corner b.mesh f 0, corner b.mesh f 1, corner b.mesh f 2)] := by unfold trianglesOf; rw [if_pos h3]
      rw [et, List.map_cons, List.map_nil, List.sum_cons, List.sum_nil, add_zero]
      exact solidTri_eq (fun e => h (tri_onFace (t := (corner b.mesh f 0, corner b.mesh f 1, corner b.mesh f 2)) (by rw [et]; simp) e))

/-- The winding number is the sum of the triangles' angles, in turns. -/
theorem winding_eq {b : Body} {d : Vec} (hr : Reachable d b.mesh) {q : Vec} (h : ¬OnSurface b q) :
    b.winding q = ((triangles b).map (turn b q)).sum / (2 * Real.pi) := by
  unfold Body.winding windingNumber blockSum triangles
  rw [foldl_add, zero_add, faces_eq]
  have : ∀ l : List Nat, (∀ f ∈ l, LiveF b.mesh f) → (l.map (fun f => onFace b.cdt b.mesh q f)).sum = ((l.flatMap (trianglesOf b)).map (turn b q)).sum / (2 * Real.pi) := by
    intro l
    induction l with
    | nil => simp
    | cons f l ih =>
      intro hl
      have hf := hl f List.mem_cons_self
      rw [List.map_cons, List.sum_cons, ih (fun g hg => hl g (List.mem_cons_of_mem _ hg)), onFace_eq hr hf (fun e => h ⟨f, hf, e⟩), List.flatMap_cons, List.map_append, List.sum_append, add_div]
      congr 1
      generalize trianglesOf b f = ts
      induction ts with
      | nil => simp
      | cons t ts ih' => simp only [List.map_cons, List.sum_cons]; rw [ih', add_div]
  apply this
  intro f hf
  rw [← faces_eq] at hf
  exact mem_faces.1 hf

theorem turn_off {b : Body} {q : Vec} (h : ¬OnSurface b q) {t : Nat × Nat × Nat} (ht : t ∈ triangles b) :
    ¬Zero3 (sub (b.mesh.pos t.1) q) (sub (b.mesh.pos t.2.1) q) (sub (b.mesh.pos t.2.2) q) := by
  intro e
  unfold triangles at ht
  obtain ⟨f, hf, ht⟩ := List.mem_flatMap.1 ht
  rw [← faces_eq] at hf
  exact h ⟨f, mem_faces.1 hf, tri_onFace ht (tri_of_zero3 e)⟩

end Mcut.Winding
