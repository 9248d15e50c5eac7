import Verif.Props.C83

/-!
# C84: an example, two tetrahedra
-/
namespace Mcut.Stitch
open Mcut.Hmesh Mcut.Extract Mcut.Registry Mcut.CutEdges Mcut.Boundary Mcut.Trace Mcut.Split Mcut.Patches Mcut.CutPaths Mcut.Origin
open Mcut.Floating Mcut.Pairs

/-- A tetrahedron. -/
def demoTetra : Mesh Unit :=
  (runAll (Mesh.empty ()) [.addVertex (), .addVertex (), .addVertex (), .addVertex (), .addFace [0, 1, 2], .addFace [0, 2, 3], .addFace [0, 3, 1], .addFace [1, 3, 2]]).getD (Mesh.empty ())

/-- Two tetrahedra, the tips of which pass through each other. -/
def tetraSoup : Soup Unit := (soup 0 demoTetra demoTetra none).getD ⟨demoTetra, [], [], [], []⟩

/-- Each edge at the tip of one tetrahedron pierces one side of the other. -/
def tetraTest (e f : Nat) : Outcome Unit := if (e, f) ∈ [(0, 4), (2, 5), (4, 6), (7, 0), (10, 1), (8, 2)] then .point () else .miss

def tetraCand : List (Nat × List Nat) := [(0, [4]), (2, [5]), (4, [6]), (7, [0]), (10, [1]), (8, [2])]

def tetraTables : Registry.Tables Unit := (Registry.sequential tetraSoup.ps 4 4 8 tetraTest tetraCand).getD .empty

def tetraKeys : List (Nat × Nat) := [(0, 4), (0, 5), (1, 5), (1, 6), (2, 4), (2, 6)]

def tetraCut : CutEdges.St Unit :=
  (cutEdges tetraSoup.ps 8 tetraTables.reg id (fun _ _ _ => true) tetraTables.cut tetraKeys (addPoints (copyVertices () tetraSoup.ps).1 tetraTables.pts)).getD
    ⟨Mesh.empty (), [], fun _ => [], fun _ => []⟩

def tetraDivided : Boundary.St Unit :=
  Boundary.sequential tetraSoup.ps 8 tetraTables.edges (List.range 12) (part1 tetraSoup.ps tetraTables.edges demoSort [] (Boundary.start tetraCut))


theorem tetra_live (e : Nat) : LiveE tetraSoup.ps e ↔ e < 12 := by
  have nE : tetraSoup.ps.nE = 12 := by decide +kernel
  have eRem : tetraSoup.ps.eRem = [] := by decide +kernel
  unfold LiveE Live
  rw [nE, eRem]; simp

theorem tetra_face {e g : Nat} (he : e < 12) (h : OnEdge tetraSoup.ps e g) : g < 8 := by
  have : ∀ e ∈ List.range 12, ∀ i ∈ [0, 1], (tetraSoup.ps.face (halfedgeOf e i)).getD 0 < 8 := by decide +kernel
  rcases h with h | h
  · have := this e (List.mem_range.2 he) 0 (by simp)
    rw [h] at this; exact this
  · have := this e (List.mem_range.2 he) 1 (by simp)
    rw [h] at this; exact this

theorem tetra_common : OneCommonEdge tetraSoup.ps := by
  have all : ∀ e ∈ List.range 12, ∀ e' ∈ List.range 12, ∀ g ∈ List.range 8, ∀ g' ∈ List.range 8, g ≠ g' → OnEdge tetraSoup.ps e g → OnEdge tetraSoup.ps e g' →
      OnEdge tetraSoup.ps e' g → OnEdge tetraSoup.ps e' g' → e = e' := by decide +kernel
  intro e e' g g' he he' hne h1 h2 h3 h4
  have he := (tetra_live e).1 he
  have he' := (tetra_live e').1 he'
  exact all e (List.mem_range.2 he) e' (List.mem_range.2 he') g (List.mem_range.2 (tetra_face he h1)) g' (List.mem_range.2 (tetra_face he h2)) hne h1 h2 h3 h4

theorem demoTetra_valid : Preproc.ValidMesh demoTetra.numVertices (polygons demoTetra) := by
  rw [show demoTetra.numVertices = 4 by decide +kernel, show polygons demoTetra = [[1, 2, 0], [2, 3, 0], [3, 1, 0], [3, 2, 1]] by decide +kernel]
  refine ⟨?_, by decide⟩
  intro f hf
  simp only [List.mem_cons, List.not_mem_nil, or_false] at hf
  rcases hf with rfl | rfl | rfl | rfl
  all_goals exact ⟨by decide, by decide, by decide⟩

/-- The bundled conditions of C82 hold of two tetrahedra, the tips of which pass through each other. -/
theorem tetra_setting : ∃ pieces, Setting () 0 demoTetra demoTetra none tetraSoup (hits tetraTest tetraCand) tetraTables tetraKeys id (fun _ _ _ => true) demoSort (List.range 12) tetraCut tetraDivided pieces := by
  have J : Intact () demoTetra := runAll_intact () _ (by decide +kernel) (by decide +kernel)
  have hw := demoTetra_valid
  have hsz : Sizes demoTetra demoTetra none := by intro t h; cases h
  obtain ⟨S, hS, M, -⟩ := C60_soup 0 J J hw none hsz
  have hps : tetraSoup = S := by unfold tetraSoup; rw [hS]; rfl
  rw [← hps] at M hS
  have nV : demoTetra.numVertices = 4 := by decide +kernel
  have nF : demoTetra.numFaces = 4 := by decide +kernel
  have nV' : tetraSoup.ps.numVertices = 8 := by decide +kernel
  have nF' : tetraSoup.ps.numFaces = 8 := by decide +kernel
  have cross0 : ∀ x ∈ tetraCand, ∀ f ∈ x.2, ∃ g ∈ List.range 8, (∃ h ∈ tetraSoup.ps.fh g, edgeOf h = x.1) ∧ f < 8 ∧ OtherSide 4 g f := by decide +kernel
  have cross : ∀ x ∈ tetraCand, ∀ f ∈ x.2, ∃ g, g < tetraSoup.ps.numFaces ∧ OnFace tetraSoup.ps x.1 g ∧ f < tetraSoup.ps.numFaces ∧ OtherSide demoTetra.numFaces g f := by
    intro x hx f hf
    obtain ⟨g, g1, g2, g3, g4⟩ := cross0 x hx f hf
    rw [nF', nF]
    exact ⟨g, List.mem_range.1 g1, g2, g3, g4⟩
  have sided : ∀ x ∈ tetraCand, ∀ f ∈ x.2, Sided tetraSoup.ps 4 4 x.1 f := by
    intro x hx f hf
    obtain ⟨g, g1, g2, g3, g4⟩ := cross x hx f hf
    have := C63_valid M hw hw g1 g2 g4
    rwa [nV, nF] at this
  have hrec := (C63_sequential tetraSoup.ps 4 4 8 tetraTest tetraCand sided).2 tetraTables (some_getD (by decide +kernel))
  have hx : CrossTested tetraSoup.ps demoTetra.numFaces tetraTables.reg := by
    have : ∀ x ∈ tetraTables.reg, ∃ y ∈ tetraCand, x.1 = y.1 ∧ x.2 ∈ y.2 := by decide +kernel
    intro x hx
    obtain ⟨y, hy, h1, h3⟩ := this x hx
    rw [h1]
    exact cross y hy _ h3
  have hrec' : Recorded tetraSoup.ps demoTetra.numFaces tetraSoup.ps.numVertices (hits tetraTest tetraCand) tetraTables := by rw [nF, nV']; exact hrec
  have bound : ∀ s f, tetraTables.cut (s, f) ≠ [] → s < 8 ∧ f < 8 := by
    intro s f hk
    obtain ⟨v, hv'⟩ := List.exists_mem_of_ne_nil _ hk
    obtain ⟨i, e, g, -, hi, h1, h3, h4⟩ := ((hrec.cut s f).2 v).1 hv'
    have hreg : ∀ x ∈ tetraTables.reg, x.1 < 12 ∧ x.2 < 8 := by decide +kernel
    obtain ⟨he, hg⟩ := hreg _ (List.mem_of_getElem? hi)
    rcases h4 with ⟨h4, h5⟩ | ⟨h4, h5⟩
    · have := tetra_face he h4
      simp only at hg
      omega
    · have := tetra_face he h4
      simp only at hg
      omega
  have fin : ∀ s ∈ List.range 8, ∀ f ∈ List.range 8, tetraTables.cut (s, f) ≠ [] → (s, f) ∈ tetraKeys ∧ (tetraTables.cut (s, f)).length = 2 := by decide +kernel
  have hcut : ∀ k, tetraTables.cut k ≠ [] → k ∈ tetraKeys ∧ (tetraTables.cut k).length = 2 := by
    rintro ⟨s, f⟩ hk
    obtain ⟨b1, b2⟩ := bound s f hk
    exact fin s (List.mem_range.2 b1) f (List.mem_range.2 b2) hk
  have hkeys' : ∀ k, k ∈ tetraKeys ↔ tetraTables.cut k ≠ [] := by
    have : ∀ k ∈ tetraKeys, tetraTables.cut k ≠ [] := by decide +kernel
    exact fun k => ⟨this k, fun h => (hcut k h).1⟩
  have A : Arranges tetraSoup.ps tetraTables.edges demoSort := fun e _ _ => ⟨_, List.Perm.refl _, rfl⟩
  have hl : AllEdges tetraSoup.ps (List.range 12) := ⟨List.nodup_range, fun e => by rw [List.mem_range, tetra_live]⟩
  have ho : ManyPoints tetraSoup.ps tetraTables.edges [] := by
    have : ∀ e ∈ List.range 12, ¬ 1 < (tetraTables.edges e).length := by decide +kernel
    refine ⟨List.nodup_nil, fun e => ?_⟩
    rw [tetra_live]
    constructor
    · intro h; cases h
    · rintro ⟨h1, h3⟩; exact absurd h3 (this e (List.mem_range.2 h1))
  have hc : cutEdges tetraSoup.ps tetraSoup.ps.numVertices tetraTables.reg id (fun _ _ _ => true) tetraTables.cut tetraKeys
      (addPoints (copyVertices () tetraSoup.ps).1 tetraTables.pts) = some tetraCut := by
    rw [nV']; exact some_getD (by decide +kernel)
  have hnd : tetraTables.reg.Nodup := by decide +kernel
  have Rd := C70_ready M hw hw _ tetraTables hrec' hx (fun k hk => (hcut k hk).2) tetraKeys hkeys' id (fun _ _ _ => true) tetraCut hc
  obtain ⟨pieces, D⟩ := C70_sequential Rd A [] (List.range 12) ho hl
  rw [nV'] at D
  have D' : Divided () tetraSoup.ps tetraSoup.ps.numVertices tetraTables.edges demoSort (List.range 12) tetraCut tetraDivided pieces := by rw [nV']; exact D
  have G := C71_given M hw hw _ tetraTables hrec' hx hnd (fun k hk => (hcut k hk).2) tetraKeys hkeys' id (fun _ _ _ => true) tetraCut hc A hl D'
  have FF : FromFaces () demoTetra := by
    have e : runAll (Mesh.empty ()) [.addVertex (), .addVertex (), .addVertex (), .addVertex (), .addFace [0, 1, 2], .addFace [0, 2, 3], .addFace [0, 3, 1], .addFace [1, 3, 2]] = some demoTetra :=
      some_getD (by decide +kernel)
    refine runAll_from _ _ _ .empty ?_ e
    intro op hop
    simp only [List.mem_cons, List.not_mem_nil, or_false] at hop
    rcases hop with rfl | rfl | rfl | rfl | rfl | rfl | rfl | rfl
    all_goals first | exact .inl ⟨_, rfl⟩ | exact .inr ⟨_, rfl⟩
  refine ⟨pieces, ⟨J, FF, J, hw, hw, hsz, hS, hrec', hx, hnd, fun k hk => (hcut k hk).2, hkeys', hc, A, hl, D', tetra_common, ?_⟩⟩
  intro f hf
  rw [nF] at hf
  have hfm : f ∈ List.range 8 := List.mem_range.2 hf
  have c1 : ∀ f ∈ List.range 8, (tetraSoup.ps.fh f).length = 3 ∧ ∀ h ∈ tetraSoup.ps.fh f, (tetraTables.edges (edgeOf h)).length ≤ 1 := by decide +kernel
  have c2 : ∀ f ∈ List.range 8, ∀ e ∈ tetraCut.faceEdges f, ∀ v ∈ [tetraCut.m0.edgeVertex e 0, tetraCut.m0.edgeVertex e 1],
      v ∈ around tetraSoup.ps tetraTables.edges demoSort f ∨ ∃ e' ∈ tetraCut.faceEdges f, e' ≠ e ∧ EndsIn tetraCut.m0 e' v := by decide +kernel
  have c3 : ∀ f ∈ List.range 8, ∀ e ∈ tetraCut.faceEdges f, ∀ v ∈ [tetraCut.m0.edgeVertex e 0, tetraCut.m0.edgeVertex e 1],
      ∃ w ∈ around tetraSoup.ps tetraTables.edges demoSort f, w = v ∨ ∃ y ∈ tetraCut.faceEdges f, Joins tetraCut.m0 y v w := by decide +kernel
  have nFr : tetraSoup.ps.nF = 8 := by decide +kernel
  have fRem : tetraSoup.ps.fRem = [] := by decide +kernel
  have hin : ∀ {e v : Nat}, EndsIn tetraCut.m0 e v → v ∈ [tetraCut.m0.edgeVertex e 0, tetraCut.m0.edgeVertex e 1] := by
    rintro e v (h | h) <;> simp [h]
  refine C74_triangle G f ⟨by rw [nFr]; exact hf, by rw [fRem]; simp⟩ (c1 f hfm).1 (c1 f hfm).2 (fun e he v hv => c2 f hfm e he v (hin hv)) ?_
  intro e he v hv
  obtain ⟨w, w1, w2⟩ := c3 f hfm e he v (hin hv)
  refine ⟨w, w1, ?_⟩
  rcases w2 with rfl | h
  · exact .refl
  · exact .single h


end Mcut.Stitch
