import Verif.Lemmas.C76Geom

/-! A demonstration for C76: two triangles cut off opposite corners of a quadrangle. -/
namespace Mcut.Trace
open Mcut.Hmesh Mcut.Registry Mcut.CutEdges Mcut.Boundary Mcut.Extract Mcut.Floating Mcut.Pairs

/-- A quadrangle. -/
def quadMesh : Mesh Unit :=
  (runAll (Mesh.empty ()) [.addVertex (), .addVertex (), .addVertex (), .addVertex (), .addFace [0, 1, 2, 3]]).getD (Mesh.empty ())

/-- Two triangles. -/
def trisMesh : Mesh Unit :=
  (runAll (Mesh.empty ()) [.addVertex (), .addVertex (), .addVertex (), .addVertex (), .addVertex (), .addVertex (), .addFace [0, 1, 2], .addFace [3, 4, 5]]).getD (Mesh.empty ())

def quadPs : Mesh Unit := ((soup 0 quadMesh trisMesh none).map (fun S => S.ps)).getD quadMesh

/-- The edges at corner 0 pierce the first triangle, those at corner 2 the second one. -/
def quadTest (e f : Nat) : Outcome Unit := if (e, f) = (0, 1) ∨ (e, f) = (3, 1) ∨ (e, f) = (1, 2) ∨ (e, f) = (2, 2) then .point () else .miss

def quadCand : List (Nat × List Nat) := [(0, [1]), (1, [2]), (2, [2]), (3, [1])]

def quadTables : Tables Unit := (Registry.sequential quadPs 4 1 10 quadTest quadCand).getD .empty

def quadCut : CutEdges.St Unit :=
  (cutEdges quadPs 10 quadTables.reg id (fun _ _ _ => true) quadTables.cut [(0, 1), (0, 2)] (addPoints (copyVertices () quadPs).1 quadTables.pts)).getD ⟨Mesh.empty (), [], fun _ => [], fun _ => []⟩

def quadSt : Boundary.St Unit :=
  Boundary.sequential quadPs 10 quadTables.edges (List.range 10) (part1 quadPs quadTables.edges demoSort [] (Boundary.start quadCut))

def quadOut : Out := (sequential quadPs quadSt 1 10 quadTables.reg keeping [0, 1, 2]).getD Out.empty

/-- From corner 0 the edges lead down through the first triangle; towards corner 2 they lead down through the second one. -/
def quadFalls (g s _t : Nat) : Option Bool := some (decide (g = 1 ∧ s = 0 ∨ g = 2 ∧ (s = 1 ∨ s = 3)))

/-- The same, for the halfedges of the quadrangle. -/
def quadDown (h g : Nat) : Prop := g = 1 ∧ (h = 0 ∨ h = 7) ∨ g = 2 ∧ (h = 2 ∨ h = 5)

theorem quad_live (e : Nat) : LiveE quadPs e ↔ e < 10 := by
  have nE : quadPs.nE = 10 := by decide +kernel
  have eRem : quadPs.eRem = [] := by decide +kernel
  unfold LiveE Live
  rw [nE, eRem]; simp

theorem quad_simple : SimpleEdges quadPs := by
  have all : ∀ a ∈ List.range 10, ∀ b ∈ List.range 10, ((quadPs.edgeVertex a 0 = quadPs.edgeVertex b 0 ∧ quadPs.edgeVertex a 1 = quadPs.edgeVertex b 1) ∨
      (quadPs.edgeVertex a 0 = quadPs.edgeVertex b 1 ∧ quadPs.edgeVertex a 1 = quadPs.edgeVertex b 0)) → a = b := by decide +kernel
  intro a b v w ha hb h1 h2
  refine all a (List.mem_range.2 ((quad_live a).1 ha)) b (List.mem_range.2 ((quad_live b).1 hb)) ?_
  rcases h1 with ⟨h1, h1'⟩ | ⟨h1, h1'⟩ <;> rcases h2 with ⟨h2, h2'⟩ | ⟨h2, h2'⟩
  · exact .inl ⟨h1.trans h2.symm, h1'.trans h2'.symm⟩
  · exact .inr ⟨h1.trans h2'.symm, h1'.trans h2.symm⟩
  · exact .inr ⟨h1.trans h2'.symm, h1'.trans h2.symm⟩
  · exact .inl ⟨h1.trans h2.symm, h1'.trans h2'.symm⟩

theorem quad_faces (f : Nat) : f ∈ [0, 1, 2] ↔ LiveF quadPs f := by
  have nF : quadPs.nF = 3 := by decide +kernel
  have fRem : quadPs.fRem = [] := by decide +kernel
  unfold LiveF Live
  rw [nF, fRem]; simp; omega

theorem quad_reg : quadTables.reg = [(0, 1), (1, 2), (2, 2), (3, 1)] := by decide +kernel

/-- The stages before. -/
theorem quad_given : ∃ pieces, Given () quadPs 10 quadTables.edges demoSort (List.range 10) quadCut quadSt pieces quadTables.reg ∧
    Crossing quadPs 4 1 10 quadTables.edges quadCut quadTables.reg ∧
    ∀ e f g, e ∈ quadCut.faceEdges f → e ∈ quadCut.faceEdges g → (f < 1 ↔ g < 1) → f = g := by
  have I : Intact () quadMesh := runAll_intact () _ (by decide +kernel) (by decide +kernel)
  have J : Intact () trisMesh := runAll_intact () _ (by decide +kernel) (by decide +kernel)
  have hv : Preproc.ValidMesh quadMesh.numVertices (polygons quadMesh) := by
    rw [show quadMesh.numVertices = 4 by decide +kernel, show polygons quadMesh = [[1, 2, 3, 0]] by decide +kernel]
    refine ⟨?_, by decide⟩
    intro f hf
    obtain rfl : f = [1, 2, 3, 0] := by simpa using hf
    exact ⟨by decide, by decide, by decide⟩
  have hw : Preproc.ValidMesh trisMesh.numVertices (polygons trisMesh) := by
    rw [show trisMesh.numVertices = 6 by decide +kernel, show polygons trisMesh = [[1, 2, 0], [4, 5, 3]] by decide +kernel]
    refine ⟨?_, by decide⟩
    intro f hf
    simp only [List.mem_cons, List.not_mem_nil, or_false] at hf
    rcases hf with rfl | rfl
    all_goals exact ⟨by decide, by decide, by decide⟩
  obtain ⟨S, hS, M, -⟩ := C60_soup 0 I J hw none (by intro t h; cases h)
  have hps : quadPs = S.ps := by unfold quadPs; rw [hS]; rfl
  rw [← hps] at M
  have nV : quadMesh.numVertices = 4 := by decide +kernel
  have nF : quadMesh.numFaces = 1 := by decide +kernel
  have nV' : quadPs.numVertices = 10 := by decide +kernel
  have nF' : quadPs.numFaces = 3 := by decide +kernel
  have cross : ∀ x ∈ quadCand, ∀ f ∈ x.2, ∃ g, g < quadPs.numFaces ∧ OnFace quadPs x.1 g ∧ f < quadPs.numFaces ∧ OtherSide quadMesh.numFaces g f := by
    rw [nF', nF]
    have : ∀ x ∈ quadCand, ∀ f ∈ x.2, (∃ h ∈ quadPs.fh 0, edgeOf h = x.1) ∧ f < 3 ∧ OtherSide 1 0 f := by decide +kernel
    intro x hx f hf
    obtain ⟨a, b, c⟩ := this x hx f hf
    exact ⟨0, by omega, a, b, c⟩
  have sided : ∀ x ∈ quadCand, ∀ f ∈ x.2, Sided quadPs 4 1 x.1 f := by
    intro x hx f hf
    obtain ⟨g, g1, g2, g3, g4⟩ := cross x hx f hf
    have := C63_valid M hv hw g1 g2 g4
    rwa [nV, nF] at this
  have hrec := (C63_sequential quadPs 4 1 10 quadTest quadCand sided).2 quadTables (some_getD (by decide +kernel))
  have hx : CrossTested quadPs quadMesh.numFaces quadTables.reg := by
    intro x hx
    rw [quad_reg] at hx
    simp only [List.mem_cons, List.not_mem_nil, or_false] at hx
    rcases hx with rfl | rfl | rfl | rfl
    · exact cross (0, [1]) (by decide) 1 (by decide)
    · exact cross (1, [2]) (by decide) 2 (by decide)
    · exact cross (2, [2]) (by decide) 2 (by decide)
    · exact cross (3, [1]) (by decide) 1 (by decide)
  have hrec' : Recorded quadPs quadMesh.numFaces quadPs.numVertices (hits quadTest quadCand) quadTables := by rw [nF, nV']; exact hrec
  have K := known_of M hv hw hrec' hx
  have cases2 : ∀ k, quadTables.cut k ≠ [] → k = (0, 1) ∨ k = (0, 2) := by
    rintro ⟨s, f⟩ hk
    obtain ⟨v, hv'⟩ := List.exists_mem_of_ne_nil _ hk
    obtain ⟨i, e, g, -, hi, h1, h3, h4⟩ := ((hrec.cut s f).2 v).1 hv'
    have hmem := List.mem_of_getElem? hi
    have Sd := K.sided _ hmem
    rw [nV, nF] at Sd
    have hg : (e < 4) ∧ (g = 1 ∨ g = 2) := by
      rw [quad_reg] at hmem
      simp at hmem; omega
    have hs : s = 0 := by omega
    rcases h4 with ⟨-, h4⟩ | ⟨-, h4⟩
    · rw [hs, ← h4]
      rcases hg.2 with rfl | rfl <;> simp
    · omega
  have hcut : ∀ k, quadTables.cut k ≠ [] → (quadTables.cut k).length = 2 := by
    intro k hk'
    rcases cases2 k hk' with rfl | rfl <;> decide +kernel
  have hkeys : ∀ k, k ∈ [(0, 1), (0, 2)] ↔ quadTables.cut k ≠ [] := by
    intro k
    constructor
    · intro h
      simp only [List.mem_cons, List.not_mem_nil, or_false] at h
      rcases h with rfl | rfl <;> decide +kernel
    · intro h
      rcases cases2 k h with rfl | rfl <;> simp
  have hnd : quadTables.reg.Nodup := by rw [quad_reg]; decide
  have hc : cutEdges quadPs quadPs.numVertices quadTables.reg id (fun _ _ _ => true) quadTables.cut [(0, 1), (0, 2)] (addPoints (copyVertices () quadPs).1 quadTables.pts) = some quadCut := by
    rw [nV']; exact some_getD (by decide +kernel)
  have A : Arranges quadPs quadTables.edges demoSort := fun e _ _ => ⟨_, List.Perm.refl _, rfl⟩
  have hl : AllEdges quadPs (List.range 10) := ⟨List.nodup_range, fun e => by rw [List.mem_range, quad_live]⟩
  have ho : ManyPoints quadPs quadTables.edges [] := by
    refine ⟨List.nodup_nil, fun e => ?_⟩
    rw [quad_live]
    have : ∀ e ∈ List.range 10, ¬ 1 < (quadTables.edges e).length := by decide +kernel
    simp only [List.not_mem_nil, false_iff, not_and]
    intro he
    exact this e (List.mem_range.2 he)
  have Rd := C70_ready M hv hw _ quadTables hrec' hx hcut [(0, 1), (0, 2)] hkeys id (fun _ _ _ => true) quadCut hc
  obtain ⟨pieces, D⟩ := C70_sequential Rd A [] (List.range 10) ho hl
  have G := C71_given M hv hw _ quadTables hrec' hx hnd hcut [(0, 1), (0, 2)] hkeys id (fun _ _ _ => true) quadCut hc A hl D
  have X := crossing_of M hv hw _ quadTables hrec' hx hcut [(0, 1), (0, 2)] hkeys id (fun _ _ _ => true) hc
  have one : OneCommonEdge quadPs := by
    have nF0 : quadPs.nF = 3 := by decide +kernel
    have hfl : ∀ e, LiveE quadPs e → ∀ g, OnEdge quadPs e g → g ∈ List.range 3 := by
      have : ∀ e ∈ List.range 10, ∀ i ∈ [0, 1], (quadPs.face (halfedgeOf e i)).getD 0 < 3 := by decide +kernel
      intro e he g hg
      rw [List.mem_range]
      rcases hg with hg | hg
      · have := this e (List.mem_range.2 ((quad_live e).1 he)) 0 (by simp)
        rw [hg] at this; exact this
      · have := this e (List.mem_range.2 ((quad_live e).1 he)) 1 (by simp)
        rw [hg] at this; exact this
    have all : ∀ e ∈ List.range 10, ∀ e' ∈ List.range 10, ∀ g ∈ List.range 3, ∀ g' ∈ List.range 3, g ≠ g' → OnEdge quadPs e g → OnEdge quadPs e g' → OnEdge quadPs e' g →
        OnEdge quadPs e' g' → e = e' := by decide +kernel
    intro e e' g g' he he' hne h1 h2 h3 h4
    exact all e (List.mem_range.2 ((quad_live e).1 he)) e' (List.mem_range.2 ((quad_live e').1 he')) g (hfl e he g h1) g' (hfl e he g' h2) hne h1 h2 h3 h4
  have two := (C73_two_faces M hv hw _ quadTables hrec' hx hnd hcut [(0, 1), (0, 2)] hkeys id (fun _ _ _ => true) quadCut hc one).2
  rw [nV'] at G X
  rw [nV, nF] at X
  rw [nF] at two
  exact ⟨pieces, by unfold quadSt; rw [nV'] at *; exact G, X, two⟩

theorem quad_few : ∀ f ∈ [0, 1, 2], quadCut.faceEdges f ≠ [] → ∀ h ∈ quadPs.fh f, (quadTables.edges (edgeOf h)).length ≤ 1 := by decide +kernel

theorem quad_one (e : Nat) (he : e < 10) : (quadTables.edges e).length ≤ 1 := by
  have : ∀ e ∈ List.range 10, (quadTables.edges e).length ≤ 1 := by decide +kernel
  exact this e (List.mem_range.2 he)

/-- The sign test. -/
theorem quad_falls {pieces : Nat → List Nat} (G : Given () quadPs 10 quadTables.edges demoSort (List.range 10) quadCut quadSt pieces quadTables.reg) (h g x : Nat)
    (A : Arrives quadPs quadSt.m0 10 quadTables.edges demoSort pieces quadTables.reg h g x) :
    ∃ b, quadFalls g (src quadSt.m0 x) (quadSt.m0.target x) = some b ∧ (b = true ↔ quadDown h g) := by
  have hm := List.mem_of_getElem? A.point.2
  rw [quad_reg] at hm
  simp only [List.mem_cons, List.not_mem_nil, or_false, Prod.mk.injEq] at hm
  have hs := part_ends G A (quad_one _ (by omega))
  refine ⟨_, rfl, ?_⟩
  rw [hs, decide_eq_true_eq]
  have key : ∀ h ∈ List.range 8, src quadPs h = [0, 1, 1, 2, 2, 3, 3, 0].getD h 0 := by decide +kernel
  have hh : h < 8 := by unfold edgeOf at hm; omega
  rw [key h (List.mem_range.2 hh)]
  unfold quadDown
  unfold edgeOf at hm
  have : h = 0 ∨ h = 1 ∨ h = 2 ∨ h = 3 ∨ h = 4 ∨ h = 5 ∨ h = 6 ∨ h = 7 := by omega
  rcases this with rfl | rfl | rfl | rfl | rfl | rfl | rfl | rfl <;> simp at hm ⊢ <;> omega

/-- The edge from corner 1 to corner 2 passes down through the second triangle, from the polygon in the middle to the one at corner 2. -/
theorem quad_meet {pieces : Nat → List Nat} (G : Given () quadPs 10 quadTables.edges demoSort (List.range 10) quadCut quadSt pieces quadTables.reg) :
    Meet quadPs quadSt.m0 1 10 quadTables.edges demoSort pieces quadTables.reg quadCut quadDown quadOut 1 2 := by
  have hpts : quadTables.edges 1 = [11] := by decide +kernel
  have hpath : ∀ h, edgeOf h = 1 → LiveH quadPs h → pathOf quadPs quadTables.edges demoSort h = [src quadPs h, 11, quadPs.target h] := by
    intro h he hl
    obtain ⟨q, q1, q2⟩ := G.path hl
    rw [he, hpts] at q1
    rw [q2, List.perm_singleton.1 q1]; rfl
  have hpt : ∀ e, LiveE quadPs e → 11 ∈ quadTables.edges e → e = 1 := by
    intro e he h
    have : ∀ e ∈ List.range 10, 11 ∈ quadTables.edges e → e = 1 := by decide +kernel
    exact this e (List.mem_range.2 ((quad_live e).1 he)) h
  have hsrc : src quadPs 2 = 1 ∧ src quadPs 3 = 2 ∧ quadPs.target 2 = 2 ∧ quadPs.target 3 = 1 := by decide +kernel
  have W := reachable_wf G.divided.valid
  have nE : quadSt.m0.nE = 16 := by decide +kernel
  have hlive : ∀ x, x < 32 → LiveH quadSt.m0 x := by
    intro x hx
    rw [W.liveH_iff]
    unfold LiveE Live
    rw [nE, G.divided.numbers.2.2]
    refine ⟨by omega, by simp⟩
  have hnE : quadCut.m0.nE = 2 := by decide +kernel
  have which : ∀ x, x < 32 → 4 ≤ x → (src quadSt.m0 x = 11 ∨ quadSt.m0.target x = 11) → ∃ h, PartOf quadPs quadSt.m0 quadTables.edges demoSort pieces h x ∧ edgeOf h = 1 := by
    intro x hx h4 h11
    obtain ⟨h, hp⟩ := G.part_every (hlive x hx) (by rw [hnE]; unfold edgeOf; omega)
    refine ⟨h, hp, ?_⟩
    have hle : LiveE quadPs (edgeOf h) := ((reachable_wf G.ready.psOk).liveH_iff h).1 hp.1
    obtain ⟨q, q1, q2⟩ := G.path hp.1
    have hin : 11 ∈ pathOf quadPs quadTables.edges demoSort h := by
      have := hp.2.2.2.subset
      rcases h11 with h | h <;> exact this (by rw [h]; simp)
    rw [q2, List.mem_cons, List.mem_append, List.mem_singleton] at hin
    have hb : ∀ h' ∈ List.range 20, src quadPs h' < 10 ∧ quadPs.target h' < 10 := by decide +kernel
    have hl20 : h < 20 := by have := (quad_live _).1 hle; unfold edgeOf at this; omega
    have := hb h (List.mem_range.2 hl20)
    rcases hin with h | h | h
    · omega
    · exact hpt _ hle (q1.subset h)
    · omega
  have hx11 : src quadSt.m0 11 = 1 ∧ quadSt.m0.target 11 = 11 ∧ src quadSt.m0 9 = 11 ∧ quadSt.m0.target 9 = 2 := by decide +kernel
  have hr : quadTables.reg[11 - 10]? = some (1, 2) := by rw [quad_reg]; rfl
  have hp11 : PartOf quadPs quadSt.m0 quadTables.edges demoSort pieces 2 11 := by
    obtain ⟨h, hp, he⟩ := which 11 (by omega) (by omega) (.inr hx11.2.1)
    have h23 : h = 2 ∨ h = 3 := by unfold edgeOf at he; omega
    rcases h23 with rfl | rfl
    · exact hp
    · exfalso
      have := hp.2.2.2
      rw [hpath 3 he hp.1, hx11.1, hx11.2.1, hsrc.2.1, hsrc.2.2.2] at this
      revert this; decide
  have hp9 : PartOf quadPs quadSt.m0 quadTables.edges demoSort pieces 2 9 := by
    obtain ⟨h, hp, he⟩ := which 9 (by omega) (by omega) (.inl hx11.2.2.1)
    have h23 : h = 2 ∨ h = 3 := by unfold edgeOf at he; omega
    rcases h23 with rfl | rfl
    · exact hp
    · exfalso
      have := hp.2.2.2
      rw [hpath 3 he hp.1, hx11.2.2.1, hx11.2.2.2, hsrc.2.1, hsrc.2.2.2] at this
      revert this; decide
  refine ⟨0, [5, 11, 2, 13, 19, 1], [9, 15, 3], 11, 2, 9, 2, 2, by decide +kernel, by decide +kernel, by omega, by decide +kernel, by decide +kernel, ⟨1, rfl, rfl⟩, ⟨2, rfl, rfl⟩,
    by decide +kernel, ⟨hp11, by rw [hx11.2.1]; exact ⟨by omega, hr⟩⟩, ⟨hp9, by rw [hx11.2.2.1]; exact ⟨by omega, hr⟩⟩, .inr ⟨rfl, .inl rfl⟩⟩

/-- What is recorded. -/
theorem quad_sides : (users quadSt.m0.numHalfedges quadOut.polygons).bind (fun T => sides quadPs quadSt.m0 4 1 10 (2 * quadCut.m0.nE) quadTables.reg quadFalls T quadOut) = some ([0, 1], [1]) := by
  have h : (users quadSt.m0.numHalfedges quadOut.polygons).bind (fun T => quadOut.sm.foldlM (fun s i =>
      sidesOf quadPs quadSt.m0 4 1 10 (2 * quadCut.m0.nE) quadTables.reg quadFalls T quadOut i s) ([], [])) = some ([0, 1], [1]) := by decide +kernel
  unfold sides
  cases hu : users quadSt.m0.numHalfedges quadOut.polygons with
  | none => rw [hu] at h; cases h
  | some T =>
    rw [hu, Option.bind_some] at h
    rw [Option.bind_some, h, Option.map_some]
    rw [List.mergeSort_of_pairwise (by simp), List.mergeSort_of_pairwise (by simp)]

end Mcut.Trace
