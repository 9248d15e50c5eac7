import Verif.Lemmas.C50

/-! C50 — face adjacency data is symmetric. -/
namespace Mcut.Hmesh
variable {P : Type}

/-- C50: face `g` is listed as adjacent to face `f` as often as `f` is listed as adjacent to `g`. -/
theorem C50_symmetric {d : P} {m : Mesh P} (h : Reachable d m) (f g : Nat) (hf : LiveF m f) (hg : LiveF m g) :
    (m.facesAroundFace f).count g = (m.facesAroundFace g).count f := by
  have W := reachable_wf h
  have F := W.faceOK hf
  have G := W.faceOK hg
  unfold Mesh.facesAroundFace
  rw [count_across, count_across]
  have inj : Function.Injective opposite := fun a b hab => by rw [← opposite_opposite a, hab, opposite_opposite]
  rw [← List.length_map (f := opposite) (as := (m.fh f).filter _)]
  apply List.Perm.length_eq
  rw [List.perm_ext_iff_of_nodup ((F.nd.filter _).map inj) (G.nd.filter _)]
  intro x
  simp only [List.mem_map, List.mem_filter, decide_eq_true_eq]
  constructor
  · rintro ⟨y, ⟨hy, ha⟩, rfl⟩
    have ly := (F.mem y hy).1
    rw [faceAcross_eq W ly] at ha
    have lo := W.opp_live ly
    refine ⟨(W.ofFace lo ha).2, ?_⟩
    rw [faceAcross_eq W lo, opposite_opposite]
    exact (F.mem y hy).2
  · rintro ⟨hx, ha⟩
    have lx := (G.mem x hx).1
    rw [faceAcross_eq W lx] at ha
    have lo := W.opp_live lx
    refine ⟨opposite x, ⟨(W.ofFace lo ha).2, ?_⟩, opposite_opposite x⟩
    rw [faceAcross_eq W lo, opposite_opposite]
    exact (G.mem x hx).2

/-- C50: the adjacency list of `f` contains exactly the live faces across its edges, one entry per shared halfedge in boundary order. -/
theorem C50_exact {d : P} {m : Mesh P} (h : Reachable d m) (f : Nat) (hf : LiveF m f) :
    m.facesAroundFace f = (m.fh f).filterMap (fun x => m.face (opposite x)) ∧
    ∀ g, g ∈ m.facesAroundFace f ↔ LiveF m g ∧ ∃ x, x ∈ m.fh f ∧ opposite x ∈ m.fh g := by
  have W := reachable_wf h
  have F := W.faceOK hf
  have h1 : m.facesAroundFace f = (m.fh f).filterMap (fun x => m.face (opposite x)) := by
    unfold Mesh.facesAroundFace
    apply List.filterMap_congr
    intro x hx
    exact faceAcross_eq W (F.mem x hx).1
  refine ⟨h1, fun g => ?_⟩
  rw [h1, List.mem_filterMap]
  constructor
  · rintro ⟨x, hx, hg⟩
    have := W.ofFace (W.opp_live (F.mem x hx).1) hg
    exact ⟨this.1, x, hx, this.2⟩
  · rintro ⟨hg, x, hx, hxo⟩
    exact ⟨x, hx, ((W.faceOK hg).mem _ hxo).2⟩

/-- C50: the reported number of adjacent faces is the length of the adjacency list (for every mesh state). -/
theorem C50_size (m : Mesh P) (f : Nat) : m.numFacesAroundFace f = (m.facesAroundFace f).length := by
  unfold Mesh.numFacesAroundFace Mesh.facesAroundFace
  rw [foldl_count]; omega

/-- Non-vacuity: in the tetrahedron face 0 is adjacent to the three others. -/
example : (runAll (Mesh.empty ()) demoOps).map (fun m => m.facesAroundFace 0) = some [1, 2, 3] := by decide +kernel

end Mcut.Hmesh
