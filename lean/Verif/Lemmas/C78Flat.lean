import Verif.Lemmas.C78
import Verif.Lemmas.C77Keys
import Verif.Lemmas.C78Edges
import Verif.Props.C74

/-!
# Lemmas for C78: the polygons of the source mesh in "m0"
-/
namespace Mcut.Split
open Mcut.Hmesh Mcut.Extract Mcut.Registry Mcut.CutEdges Mcut.Boundary Mcut.Trace
variable {P : Type} {d : P} {ps : Mesh P} {base : Nat} {pts : Nat → List Nat} {sort : Nat → Nat → List Nat → List Nat} {edges : List Nat} {c : CutEdges.St P} {st : Boundary.St P}
  {pieces : Nat → List Nat} {reg : List (Nat × Nat)} {smV smF n : Nat} {o : Out} {T : Nat → List Nat} {poly : Nat → List (List Nat)}

/-- The faces of the source mesh have the vertices of the source mesh, the others the other ones. -/
def OwnVertices (ps : Mesh P) (smV smF : Nat) : Prop := ∀ f v, LiveF ps f → v ∈ ps.verticesAroundFace f → (v < smV ↔ f < smF)

theorem own_of {sm cs : Mesh P} (M : MergeOf d sm cs ps) (hs : Preproc.ValidMesh sm.numVertices (polygons sm)) : OwnVertices ps sm.numVertices sm.numFaces := by
  intro f v hf hv
  have hlt : f < ps.numFaces := by rw [M.intact.numF]; exact hf.1
  by_cases h : f < sm.numFaces
  · rw [M.smFaces f h] at hv
    have := (hs.1 (sm.verticesAroundFace f) (List.mem_map.2 ⟨f, List.mem_range.2 h, rfl⟩)).2.2 v hv
    simp [h, this]
  · obtain ⟨k, rfl⟩ : ∃ k, f = sm.numFaces + k := ⟨f - sm.numFaces, by omega⟩
    have hv' := (M.cmFaces k (by have := M.numF; omega)).perm.subset hv
    obtain ⟨w, -, rfl⟩ := List.mem_map.1 hv'
    constructor <;> intro h' <;> omega

theorem face_ends (hr : Reachable d ps) {h f : Nat} (hl : LiveH ps h) (hf : ps.face h = some f) : LiveF ps f ∧ h ∈ ps.fh f ∧ src ps h ∈ ps.verticesAroundFace f ∧ ps.target h ∈ ps.verticesAroundFace f := by
  have W := reachable_wf hr
  rcases W.h_face h f hl hf with ⟨-, h0⟩ | ⟨-, hlf, hm⟩
  · cases h0
  · have hon : Pairs.OnFace ps (edgeOf h) f := ⟨h, hm, rfl⟩
    obtain ⟨e1, e2⟩ := Pairs.edge_in_face hr hlf hon
    refine ⟨hlf, hm, ?_, List.mem_map.2 ⟨h, hm, rfl⟩⟩
    rw [(src_of hr hl).1]
    unfold Mesh.edgeVertex at e1 e2
    rcases _root_.Mcut.Trace.half_of (rfl : edgeOf h = edgeOf h) with h' | h'
    · have : opposite h = halfedgeOf (edgeOf h) 1 := by rw [h']; unfold opposite halfedgeOf edgeOf; split <;> omega
      rw [this]; exact e2
    · have : opposite h = halfedgeOf (edgeOf h) 0 := by rw [h']; unfold opposite halfedgeOf edgeOf; split <;> omega
      rw [this]; exact e1

theorem part_opposite {m0 : Mesh P} (hr : Reachable d ps) (r0 : Reachable d m0) {h x : Nat} (hp : PartOf ps m0 pts sort pieces h x) :
    PartOf ps m0 pts sort pieces (opposite h) (opposite x) := by
  obtain ⟨h1, h2, h3, h4⟩ := hp
  obtain ⟨q1, -, q3, -, q5⟩ := src_of r0 h2
  obtain ⟨-, -, -, -, q6⟩ := src_of hr h1
  have ed : ∀ y, edgeOf (opposite y) = edgeOf y := fun y => by unfold edgeOf opposite; split <;> omega
  refine ⟨q6, q5, by rw [ed, ed]; exact h3, ?_⟩
  have hpath : pathOf ps pts sort (opposite h) = (pathOf ps pts sort h).reverse := by
    unfold pathOf
    rw [ed]
    by_cases ho : h % 2 = 1
    · have : opposite h % 2 ≠ 1 := by unfold opposite; split <;> omega
      rw [if_pos ho, if_neg this]
    · have : opposite h % 2 = 1 := by unfold opposite; split <;> omega
      rw [if_neg ho, if_pos this, List.reverse_reverse]
  rw [hpath, q3, ← q1]
  have := List.reverse_infix.2 h4
  simpa using this

theorem Facts.flatOf (F : Facts d ps smV smF base pts sort edges c st pieces reg n o T poly) (nl : NoLooseEdges ps) (own : OwnVertices ps smV smF) :
    Flat st.m0 base (o.polygons.take o.smCount) := by
  have hr := F.G.ready.psOk
  refine ⟨F.flat, fun p hp h hh => ?_, fun p hp h hh => ?_, ?_, ?_⟩
  · obtain ⟨y, f1, -⟩ := follows_next (F.round hp).cyclic hh
    exact ⟨y, f1⟩
  · obtain ⟨y, f1, -⟩ := follows_prev (F.round hp).cyclic hh
    exact ⟨y, f1⟩
  · have := F.G.ready.total
    rw [F.G.divided.same.1]; exact this
  · intro x hl b1 b2
    have hn : c.m0.nE ≤ edgeOf x := by
      by_contra h
      have := (F.cut_ends (h := x) (by omega)).1
      omega
    obtain ⟨h, hp⟩ := F.G.part_every hl hn
    have hop : PartOf ps st.m0 pts sort pieces (opposite h) (opposite x) := part_opposite hr F.G.divided.valid hp
    obtain ⟨o1, o2⟩ := F.old_part hp
    have e1 := o1 b1
    have e2 := o2 b2
    by_cases s1 : ∃ f, ps.face h = some f ∧ f < smF
    · obtain ⟨f, f1, f2⟩ := s1
      exact .inl ((F.side_source hn).2 ⟨h, f, hp, f1, f2, (face_ends hr hp.1 f1).2.1⟩)
    by_cases s2 : ∃ f, ps.face (opposite h) = some f ∧ f < smF
    · obtain ⟨f, f1, f2⟩ := s2
      exact .inr (.inl ((F.side_source (F.new_of hop)).2 ⟨_, f, hop, f1, f2, (face_ends hr hop.1 f1).2.1⟩))
    · refine .inr (.inr ?_)
      have hbig : smV ≤ src st.m0 x ∧ smV ≤ st.m0.target x := by
        rw [e1, e2]
        obtain ⟨q1, -, q3, -, -⟩ := src_of hr hp.1
        rcases nl h hp.1 with hf | hf
        · obtain ⟨f, hf⟩ := Option.ne_none_iff_exists'.1 hf
          obtain ⟨l, -, m1, m2⟩ := face_ends hr hp.1 hf
          have hge : ¬ f < smF := fun h' => s1 ⟨f, hf, h'⟩
          exact ⟨by have := (own f _ l m1).not.2 hge; omega, by have := (own f _ l m2).not.2 hge; omega⟩
        · obtain ⟨f, hf⟩ := Option.ne_none_iff_exists'.1 hf
          obtain ⟨l, -, m1, m2⟩ := face_ends hr hop.1 hf
          have hge : ¬ f < smF := fun h' => s2 ⟨f, hf, h'⟩
          rw [q3] at m1
          rw [← q1] at m2
          exact ⟨by have := (own f _ l m2).not.2 hge; omega, by have := (own f _ l m1).not.2 hge; omega⟩
      have small : ∀ g, In (o.polygons.take o.smCount) g → st.m0.target g < base → st.m0.target g < smV := by
        intro g hg hb
        have hn' : c.m0.nE ≤ edgeOf g := by
          by_contra h
          have := (F.cut_ends (h := g) (by omega)).2
          omega
        obtain ⟨h', f, p', f1, f2, f3⟩ := (F.side_source hn').1 hg
        rw [(F.old_part p').2 hb]
        obtain ⟨l, -, -, m2⟩ := face_ends hr p'.1 f1
        exact (own f _ l m2).2 f2
      intro g hg
      constructor
      · intro e
        have := small g hg (by rw [e]; exact b1)
        omega
      · intro e
        have := small g hg (by rw [e]; exact b2)
        omega

theorem Facts.traced (F : Facts d ps smV smF base pts sort edges c st pieces reg n o T poly)
    (cutOne : ∀ f g a b v w, a ∈ c.faceEdges f → b ∈ c.faceEdges g → Joins c.m0 a v w → Joins c.m0 b v w → a = b)
    (nr : NoRepeat st.m0 (o.polygons.take o.smCount)) : Traced st.m0 (o.polygons.take o.smCount) := by
  rw [F.take] at nr ⊢
  refine F.G.traced F.one cutOne List.nodup_range (fun f hf => (F.live f).1 (by rw [List.mem_range] at hf; have := F.le; omega))
    (fun f hf => F.sub f (by rw [List.mem_range] at hf; have := F.le; omega)) ?_ nr
  intro e f g hf hg h1 h2
  rw [List.mem_range] at hf hg
  exact F.two e f g h1 h2 (by simp [hf, hg])

end Mcut.Split
