import Verif.Lemmas.C74Face
import Verif.Lemmas.C33

/-! Lemmas for C74: the polygons of a connected mesh are connected. -/
namespace Mcut.Trace
open Mcut.Hmesh Mcut.Registry Mcut.CutEdges Mcut.Boundary Mcut.Extract
variable {P : Type} {d : P} {ps : Mesh P} {base : Nat} {pts : Nat → List Nat} {sort : Nat → Nat → List Nat → List Nat} {edges : List Nat} {c : CutEdges.St P} {st : Boundary.St P}
  {pieces : Nat → List Nat} {reg : List (Nat × Nat)}

theorem edge_of_half {m : Mesh P} (hr : Reachable d m) {x : Nat} (hx : LiveH m x) : Preproc.MeshEdge m (src m x) (m.target x) := by
  refine ⟨x, hx, ?_, rfl⟩
  obtain ⟨h1, -, -, -, -, h6, -, h8⟩ := (C29_consistent hr).opp x hx
  unfold src
  cases hz : m.source x with
  | none => exfalso; simp_all
  | some a => rfl

theorem chain_conn {R : Nat → Nat → Prop} {s t : Nat → Nat} {A l : List Nat} (h1 : A.map s = l.dropLast) (h2 : A.map t = l.tail) (hR : ∀ x ∈ A, R (s x) (t x)) {a : Nat}
    (ha : l.head? = some a) : ∀ v ∈ l, Relation.EqvGen R a v := by
  have key : ∀ i v : Nat, l[i]? = some v → Relation.EqvGen R a v := by
    intro i
    induction i with
    | zero => intro v hv; rw [List.head?_eq_getElem?, hv] at ha; injection ha with ha; rw [ha]; exact .refl _
    | succ i ih =>
      intro v hv
      have hlt := (List.getElem?_eq_some_iff.1 hv).1
      have hA : A.length = l.length - 1 := by have := congrArg List.length h1; simpa using this
      have hi : i < A.length := by omega
      have e1 : (A.map s)[i]? = some (s A[i]) := by simp [List.getElem?_eq_getElem hi]
      have e2 : (A.map t)[i]? = some (t A[i]) := by simp [List.getElem?_eq_getElem hi]
      rw [h1, List.getElem?_dropLast, if_pos (by omega)] at e1
      rw [h2, List.getElem?_tail] at e2
      have := ih _ e1
      rw [hv] at e2
      injection e2 with e2
      rw [e2]
      exact this.trans _ _ _ (.rel _ _ (hR _ (List.getElem_mem hi)))
  intro v hv
  obtain ⟨i, hi⟩ := List.mem_iff_getElem?.1 hv
  exact key i v hi

/-- The vertices along a halfedge are connected. -/
theorem Given.path_conn (G : Given d ps base pts sort edges c st pieces reg) {h : Nat} (hl : LiveH ps h) : ∀ v ∈ pathOf ps pts sort h, Preproc.Connected st.m0 (src ps h) v := by
  obtain ⟨-, s2, s3, s4⟩ := G.sides hl
  obtain ⟨q, -, q2⟩ := G.path hl
  exact chain_conn s2 s3 (fun x hx => edge_of_half G.divided.valid (s4 x hx)) (by rw [q2]; rfl)

/-- Vertices of "ps" that are connected stay connected. -/
theorem Given.conn (G : Given d ps base pts sort edges c st pieces reg) {u v : Nat} (h : Preproc.Connected ps u v) : Preproc.Connected st.m0 u v := by
  induction h with
  | rel a b h =>
    obtain ⟨x, h1, h2, h3⟩ := h
    have e : src ps x = a := by unfold src; rw [h2]; rfl
    have := G.path_conn h1 b (by
      obtain ⟨q, -, q2⟩ := G.path h1
      rw [q2, ← h3]; simp)
    rwa [e] at this
  | refl a => exact .refl _
  | symm a b _ ih => exact ih.symm _ _
  | trans a b c _ _ i1 i2 => exact i1.trans _ _ _ i2

/-- Every vertex around a face is connected with its corners. -/
theorem Given.around_conn (G : Given d ps base pts sort edges c st pieces reg) {f : Nat} (hf : LiveF ps f) {v : Nat} (hv : v ∈ around ps pts sort f) :
    ∃ u ∈ ps.verticesAroundFace f, Preproc.Connected st.m0 u v := by
  obtain ⟨h, hh, hv⟩ := List.mem_flatMap.1 hv
  have hl := (G.live hf hh).1
  refine ⟨ps.target h, List.mem_map.2 ⟨h, hh, rfl⟩, ?_⟩
  have h1 := G.path_conn hl v ((List.dropLast_sublist _).subset hv)
  have h2 := G.path_conn hl (ps.target h) (by obtain ⟨q, -, q2⟩ := G.path hl; rw [q2]; simp)
  exact (h2.symm _ _).trans _ _ _ h1

/-- So is every end of a cut edge that is connected with the boundary. -/
theorem Given.cut_conn (G : Given d ps base pts sort edges c st pieces reg) {f v w : Nat} (h : CutPath c f v w) : Preproc.Connected st.m0 v w := by
  induction h with
  | refl => exact .refl _
  | tail _ h ih =>
    obtain ⟨y, hy, hj⟩ := h
    obtain ⟨x, x1, x2, x3⟩ := G.half_of hy hj
    have hx : LiveH st.m0 x := ((reachable_wf G.divided.valid).liveH_iff x).2 (by rw [show x / 2 = y from x1]; exact (G.cut_kept hy).1)
    have := edge_of_half G.divided.valid hx
    rw [x2, x3] at this
    exact ih.trans _ _ _ (.rel _ _ this)

/-- The polygons of faces that are connected are connected. -/
theorem Given.one_piece (G : Given d ps base pts sort edges c st pieces reg) {sel : List Nat} (hl : ∀ f ∈ sel, LiveF ps f) {poly : Nat → List (List Nat)}
    (S : ∀ f ∈ sel, FaceSub ps pts sort pieces c st.m0 f (poly f))
    (anch : ∀ f ∈ sel, ∀ e ∈ c.faceEdges f, ∀ v, EndsIn c.m0 e v → ∃ w ∈ around ps pts sort f, CutPath c f v w)
    (conn : ∀ f ∈ sel, ∀ g ∈ sel, ∀ u ∈ ps.verticesAroundFace f, ∀ v ∈ ps.verticesAroundFace g, Preproc.Connected ps u v) : OnePiece st.m0 (sel.flatMap poly) := by
  have key : ∀ i, i < (sel.flatMap poly).length → ∃ f ∈ sel, ∃ u ∈ ps.verticesAroundFace f, ∃ v ∈ Extract.corners st.m0 (sel.flatMap poly) i, Preproc.Connected st.m0 u v := by
    intro i hi
    have hm := List.getElem_mem hi
    obtain ⟨f, hf, hm⟩ := List.mem_flatMap.1 hm
    have R := (S f hf).round _ hm
    obtain ⟨x, hx⟩ := List.exists_mem_of_ne_nil (sel.flatMap poly)[i] (by intro e; have := R.three; rw [e] at this; simp at this)
    have hc : st.m0.target x ∈ Extract.corners st.m0 (sel.flatMap poly) i := by
      unfold Extract.corners
      rw [List.getD_eq_getElem?_getD, List.getElem?_eq_getElem hi]
      exact List.mem_map.2 ⟨x, hx, rfl⟩
    rcases (S f hf).kind x (List.mem_flatten.2 ⟨_, hm, hx⟩) with h | h
    · have hs : src st.m0 x ∈ around ps pts sort f := by
        have B := (G.boundaryOf (hl f hf) (List.IsRotated.refl _)).vertices
        exact B.perm.subset (List.mem_map_of_mem h)
      obtain ⟨u, u1, u2⟩ := G.around_conn (hl f hf) hs
      exact ⟨f, hf, u, u1, _, hc, u2.trans _ _ _ (.rel _ _ (edge_of_half G.divided.valid ((S f hf).live x (List.mem_flatten.2 ⟨_, hm, hx⟩))))⟩
    · obtain ⟨w, w1, w2⟩ := anch f hf _ h _ (joins_endsIn (G.joins h)).2
      obtain ⟨u, u1, u2⟩ := G.around_conn (hl f hf) w1
      exact ⟨f, hf, u, u1, _, hc, u2.trans _ _ _ ((G.cut_conn w2).symm _ _)⟩
  intro i j hi hj
  obtain ⟨f, f1, u, u1, v, v1, r⟩ := key i hi
  obtain ⟨g, g1, u', u1', v', v1', r'⟩ := key j hj
  exact ⟨v, v', v1, v1', (r.symm _ _).trans _ _ _ ((G.conn (conn f f1 g g1 u u1 u' u1')).trans _ _ _ r')⟩

theorem side_edge (hr : Reachable d ps) {f : Nat} (hf : LiveF ps f) {u v : Nat} (h : (u, v) ∈ Preproc.dirEdges (ps.verticesAroundFace f)) : Preproc.MeshEdge ps u v := by
  unfold Preproc.dirEdges at h
  obtain ⟨i, hi, e⟩ := List.mem_map.1 h
  have hlen : (ps.verticesAroundFace f).length = (ps.fh f).length := by unfold Mesh.verticesAroundFace; simp
  rw [List.mem_range, hlen] at hi
  obtain ⟨a, b, h1, h2, -, -, h5⟩ := C29_cycle hr f hf i hi
  have e1 : (ps.verticesAroundFace f).getD i 0 = ps.target a := by
    unfold Mesh.verticesAroundFace; rw [List.getD_eq_getElem?_getD, List.getElem?_map, h1]; rfl
  have e2 : (ps.verticesAroundFace f).getD ((i + 1) % (ps.fh f).length) 0 = ps.target b := by
    unfold Mesh.verticesAroundFace; rw [List.getD_eq_getElem?_getD, List.getElem?_map, h2]; rfl
  rw [hlen, e1, e2] at e
  injection e with e3 e4
  exact ⟨b, (((C29_consistent hr).face_list f hf).2.2 b (List.mem_of_getElem? h2)).1, by rw [h5, e3], e4⟩

theorem dir_map (k : Nat → Nat) {l : List Nat} {u v : Nat} (h : (u, v) ∈ Preproc.dirEdges l) : (k u, k v) ∈ Preproc.dirEdges (l.map k) := by
  unfold Preproc.dirEdges at h ⊢
  obtain ⟨i, hi, e⟩ := List.mem_map.1 h
  rw [List.mem_range] at hi
  injection e with e1 e2
  have hj : (i + 1) % l.length < l.length := Nat.mod_lt _ (by omega)
  refine List.mem_map.2 ⟨i, by rw [List.mem_range, List.length_map]; exact hi, ?_⟩
  rw [List.length_map, ← e1, ← e2]
  simp [List.getD_eq_getElem?_getD, List.getElem?_eq_getElem hi, List.getElem?_eq_getElem hj]

theorem dir_rot {l l' : List Nat} (hr : l ~r l') {u v : Nat} (h : (u, v) ∈ Preproc.dirEdges l) : (u, v) ∈ Preproc.dirEdges l' := by
  obtain ⟨n, rfl⟩ := hr
  rw [Preproc.dirEdges_eq] at h ⊢
  unfold cycPairs at h ⊢
  rw [List.rotate_rotate, Nat.add_comm, ← List.rotate_rotate, List.zip_eq_zipWith, ← List.zipWith_rotate_distrib _ _ _ _ (by simp), List.mem_rotate, ← List.zip_eq_zipWith]
  exact h

end Mcut.Trace
