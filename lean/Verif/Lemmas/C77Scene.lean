import Verif.Lemmas.C77Link
import Verif.Lemmas.C77Touch
import Verif.Lemmas.C76
import Verif.Lemmas.C74All

/-! Lemmas for C77: what is known after the polygons have been found. -/
namespace Mcut.Split
open Mcut.Hmesh Mcut.Extract Mcut.Registry Mcut.CutEdges Mcut.Boundary Mcut.Trace
variable {P : Type} {d : P} {ps : Mesh P} {base : Nat} {pts : Nat → List Nat} {sort : Nat → Nat → List Nat → List Nat} {edges : List Nat} {c : CutEdges.St P} {st : Boundary.St P}
  {pieces : Nat → List Nat} {reg : List (Nat × Nat)} {smV smF n : Nat} {part : (Nat → Bool) → List Nat → List Nat × List Nat} {o : Out} {T : Nat → List Nat} {poly : Nat → List (List Nat)}

/-- What the stage starts from. -/
structure Facts (d : P) (ps : Mesh P) (smV smF base : Nat) (pts : Nat → List Nat) (sort : Nat → Nat → List Nat → List Nat) (edges : List Nat) (c : CutEdges.St P) (st : Boundary.St P)
    (pieces : Nat → List Nat) (reg : List (Nat × Nat)) (n : Nat) (o : Out) (T : Nat → List Nat) (poly : Nat → List (List Nat)) : Prop where
  G : Given d ps base pts sort edges c st pieces reg
  one : SimpleEdges ps
  le : smF ≤ n
  live : ∀ f, f < n ↔ LiveF ps f
  few : ∀ f, f < n → c.faceEdges f ≠ [] → ∀ h ∈ ps.fh f, (pts (edgeOf h)).length ≤ 1
  two : ∀ e f g, e ∈ c.faceEdges f → e ∈ c.faceEdges g → (f < smF ↔ g < smF) → f = g
  X : Crossing ps smV smF base pts c reg
  anch : ∀ f, f < smF → ∀ x, edgeOf x ∈ c.faceEdges f → Anchored ps pts c st.m0 f x
  cutIn : ∀ e, e < c.m0.nE → ∃ f, f < smF ∧ e ∈ c.faceEdges f
  sub : ∀ f, f < n → FaceSub ps pts sort pieces c st.m0 f (poly f)
  uses : ∀ f, f < n → FaceUses ps pts sort pieces c st.m0 f (poly f)
  cross : ∀ f, f < n → FaceCross ps pts sort pieces c st.m0 f (poly f)
  L : Listed smF c (List.range n) poly o
  touch : ∀ f, f < smF → ∀ p ∈ poly f, ∃ x ∈ p, x ∈ outline ps st.m0 pts sort pieces f
  take : o.polygons.take o.smCount = (List.range smF).flatMap poly
  used : Used ps smF pts sort pieces c st.m0 o T

theorem facts_of (G : Given d ps base pts sort edges c st pieces reg) (one : SimpleEdges ps) (hp : IsPartition part) (le : smF ≤ n) (live : ∀ f, f < n ↔ LiveF ps f)
    (few : ∀ f, f < n → c.faceEdges f ≠ [] → ∀ h ∈ ps.fh f, (pts (edgeOf h)).length ≤ 1)
    (two : ∀ e f g, e ∈ c.faceEdges f → e ∈ c.faceEdges g → (f < smF ↔ g < smF) → f = g) (X : Crossing ps smV smF base pts c reg)
    (anch : ∀ f, f < smF → ∀ x, edgeOf x ∈ c.faceEdges f → Anchored ps pts c st.m0 f x) (cutIn : ∀ e, e < c.m0.nE → ∃ f, f < smF ∧ e ∈ c.faceEdges f) :
    ∃ o T poly, sequential ps st smF base reg part (List.range n) = some o ∧ users st.m0.numHalfedges o.polygons = some T ∧
      Facts d ps smV smF base pts sort edges c st pieces reg n o T poly := by
  classical
  let poly : Nat → List (List Nat) := fun f => (facePolygons ps st base reg part f).getD []
  have hpoly : ∀ f ∈ List.range n, facePolygons ps st base reg part f = some (poly f) ∧ FaceUses ps pts sort pieces c st.m0 f (poly f) := by
    intro f hf
    rw [List.mem_range] at hf
    obtain ⟨l, h1, h2⟩ := G.uses hp ((live f).1 hf) one (few f hf)
    have : poly f = l := by simp only [poly, h1, Option.getD_some]
    rw [this]; exact ⟨h1, h2⟩
  obtain ⟨o, e, -⟩ := listed_all (smF := smF) (c := c) (List.range n) [] Out.empty listed_empty (fun f hf => ⟨(hpoly f hf).1, G.entry_iff ((live f).1 (List.mem_range.1 hf))⟩)
  obtain ⟨poly', hp', L, ht, -⟩ := G.listed hp le (fun f hf => (live f).1 hf) e
  have heq : ∀ f, f < n → poly' f = poly f := by
    intro f hf
    have h1 := (hp' f hf).1
    rw [(hpoly f (List.mem_range.2 hf)).1] at h1
    exact (Option.some.inj h1).symm
  have hu : ∀ f, f < n → FaceUses ps pts sort pieces c st.m0 f (poly' f) := fun f hf => by rw [heq f hf]; exact (hpoly f (List.mem_range.2 hf)).2
  obtain ⟨T, hT, Us⟩ := used_of G List.nodup_range (fun f => by rw [List.mem_range]; exact live f) L (fun f hf => hu f (List.mem_range.1 hf)) two
  exact ⟨o, T, poly', e, hT, G, one, le, live, few, two, X, anch, cutIn, fun f hf => (hp' f hf).2, hu,
    fun f hf => G.cross hp ((live f).1 hf) one (few f hf) X.ends (hp' f hf).1, L,
    fun f hf p hpf => G.touches hp ((live f).1 (by omega)) one (few f (by omega)) (anch f hf) (hp' f (by omega)).1 hpf, ht, Us⟩

/-- The halfedges of the polygons of the source mesh. -/
def OfSource (o : Out) (h : Nat) : Prop := ∃ p ∈ o.polygons.take o.smCount, h ∈ p

section
variable (F : Facts d ps smV smF base pts sort edges c st pieces reg n o T poly)
include F

theorem Facts.source_iff {h : Nat} : OfSource o h ↔ ∃ f, f < smF ∧ h ∈ (poly f).flatten := by
  unfold OfSource
  rw [F.take]
  constructor
  · rintro ⟨p, hp, hh⟩
    obtain ⟨f, hf, hp⟩ := List.mem_flatMap.1 hp
    exact ⟨f, List.mem_range.1 hf, List.mem_flatten.2 ⟨p, hp, hh⟩⟩
  · rintro ⟨f, hf, hh⟩
    obtain ⟨p, hp, hh⟩ := List.mem_flatten.1 hh
    exact ⟨p, List.mem_flatMap.2 ⟨f, List.mem_range.2 hf, hp⟩, hh⟩

theorem Facts.liveH {h : Nat} (hU : OfSource o h) : LiveH st.m0 h := by
  obtain ⟨f, hf, hh⟩ := F.source_iff.1 hU
  exact (F.sub f (by have := F.le; omega)).live h hh

/-- All cut halfedges are used. -/
theorem Facts.cut_source {h : Nat} (hc : edgeOf h < c.m0.nE) : OfSource o h := by
  obtain ⟨f, hf, he⟩ := F.cutIn _ hc
  exact F.source_iff.2 ⟨f, hf, (F.uses f (by have := F.le; omega)).whole h he (F.anch f hf h he)⟩

/-- A halfedge of the boundaries is part of a halfedge of a face of the source mesh. -/
theorem Facts.side_source {x : Nat} (hn : c.m0.nE ≤ edgeOf x) : OfSource o x ↔ ∃ h f, PartOf ps st.m0 pts sort pieces h x ∧ ps.face h = some f ∧ f < smF ∧ h ∈ ps.fh f := by
  rw [F.source_iff]
  constructor
  · rintro ⟨f, hf, hx⟩
    have hfn : f < n := by have := F.le; omega
    obtain ⟨h, hh, hx⟩ := List.mem_flatMap.1 (((F.uses f hfn).boundary x hn).1 hx)
    have l := F.G.live ((F.live f).1 hfn) hh
    exact ⟨h, f, (F.G.part_iff l.1).2 hx, l.2.2, hf, hh⟩
  · rintro ⟨h, f, hp, hfc, hf, hh⟩
    have hfn : f < n := by have := F.le; omega
    exact ⟨f, hf, ((F.uses f hfn).boundary x hn).2 (List.mem_flatMap.2 ⟨h, hh, (F.G.part_iff hp.1).1 hp⟩)⟩

/-- A used halfedge that is part of a halfedge of the source mesh. -/
theorem Facts.side_used {x h : Nat} (hp : PartOf ps st.m0 pts sort pieces h x) (hT : T x ≠ []) : ∃ f, ps.face h = some f ∧ LiveF ps f ∧ h ∈ ps.fh f := by
  cases hf : ps.face h with
  | none => exact absurd (F.used.free h x hp hf) hT
  | some f =>
    obtain ⟨i, hi, -⟩ := F.used.side h x f hp hf
    rcases (reachable_wf F.G.ready.psOk).h_face h f hp.1 hf with ⟨-, h2⟩ | ⟨-, h1, h2⟩
    · cases h2
    · exact ⟨f, rfl, h1, h2⟩

theorem Facts.new_of {x h : Nat} (hp : PartOf ps st.m0 pts sort pieces h x) : c.m0.nE ≤ edgeOf x :=
  (F.G.pieceLive (((reachable_wf F.G.ready.psOk).liveH_iff h).1 hp.1) _ hp.2.2.1).2

theorem Facts.onEdge {h f : Nat} (hf : ps.face h = some f) : OnEdge ps (edgeOf h) f := by
  unfold OnEdge
  rcases _root_.Mcut.Trace.half_of (rfl : edgeOf h = edgeOf h) with h' | h'
  · left; rw [← h']; exact hf
  · right; rw [← h']; exact hf

/-- A part with an intersection point: its edge is in the registry. -/
theorem Facts.entry {x h : Nat} (hp : PartOf ps st.m0 pts sort pieces h x) (hi : base ≤ src st.m0 x ∨ base ≤ st.m0.target x) : ∃ g, (edgeOf h, g) ∈ reg := by
  obtain ⟨n1, n2⟩ := F.G.new_part hp
  have : ∃ v, v ∈ pts (edgeOf h) := hi.elim (fun h => ⟨_, n1 h⟩) (fun h => ⟨_, n2 h⟩)
  obtain ⟨v, hv⟩ := this
  obtain ⟨i, g, -, hr⟩ := (F.G.points _ v).1 hv
  exact ⟨g, List.mem_of_getElem? hr⟩

/-- Both ends of an edge with intersection points are of the mesh of its faces. -/
theorem Facts.old_ends {h g : Nat} (hl : LiveH ps h) (hr : (edgeOf h, g) ∈ reg) : (smV ≤ src ps h ↔ CutEdge ps smF (edgeOf h)) ∧ (smV ≤ ps.target h ↔ CutEdge ps smF (edgeOf h)) := by
  have h1 := F.X.vertex _ hr
  have h2 := (F.X.sided _ hr).vertex
  simp only at h1 h2
  have l0 : LiveH ps (halfedgeOf (edgeOf h) 0) := live_half F.G.ready.psOk (((reachable_wf F.G.ready.psOk).liveH_iff h).1 hl) 0 (by omega)
  change smV ≤ src ps (halfedgeOf (edgeOf h) 0) ↔ _ at h2
  change smV ≤ ps.target (halfedgeOf (edgeOf h) 0) ↔ _ at h1
  rcases _root_.Mcut.Trace.half_of (rfl : edgeOf h = edgeOf h) with h' | h'
  · rw [← h'] at h1 h2; exact ⟨h2, h1⟩
  · have ho : opposite (halfedgeOf (edgeOf h) 0) = h := by rw [opp0, ← h']
    obtain ⟨s1, -, s3, -⟩ := src_of F.G.ready.psOk l0
    rw [ho] at s1 s3
    rw [s3, ← s1]
    exact ⟨h1, h2⟩

/-- An original end of a part is an end of the edge. -/
theorem Facts.old_part {h x : Nat} (hp : PartOf ps st.m0 pts sort pieces h x) : (src st.m0 x < base → src st.m0 x = src ps h) ∧ (st.m0.target x < base → st.m0.target x = ps.target h) := by
  obtain ⟨q, q1, q2⟩ := F.G.path hp.1
  have hb : ∀ v ∈ q, base ≤ v := fun v hv => ((F.G.ready.points _).2 v (q1.subset hv)).1
  have hx := (F.G.part_iff hp.1).1 hp
  obtain ⟨-, s2, s3, -⟩ := F.G.sides hp.1
  constructor
  · intro hs
    have : src st.m0 x ∈ (pathOf ps pts sort h).dropLast := by rw [← s2]; exact List.mem_map.2 ⟨x, hx, rfl⟩
    rw [q2, ← List.cons_append, List.dropLast_concat] at this
    rcases List.mem_cons.1 this with h | h
    · exact h
    · have := hb _ h; omega
  · intro hs
    have : st.m0.target x ∈ (pathOf ps pts sort h).tail := by rw [← s3]; exact List.mem_map.2 ⟨x, hx, rfl⟩
    rw [q2, List.tail_cons] at this
    rcases List.mem_append.1 this with h | h
    · have := hb _ h; omega
    · simpa using h

/-- A used part with an intersection point: it is of the source mesh if its edge is not of the cut mesh. -/
theorem Facts.source_of {x h g : Nat} (hp : PartOf ps st.m0 pts sort pieces h x) (hT : T x ≠ []) (hr : (edgeOf h, g) ∈ reg) (hn : ¬ CutEdge ps smF (edgeOf h)) : OfSource o x := by
  obtain ⟨f, f1, f2, f3⟩ := F.side_used hp hT
  have := (F.X.sided _ hr).one f (F.onEdge f1)
  simp only at this
  exact (F.side_source (F.new_of hp)).2 ⟨h, f, hp, f1, by by_contra h'; exact hn (this.1 (by omega)), f3⟩

/-- A part of the source mesh with an intersection point: its edge is not of the cut mesh. -/
theorem Facts.not_cut {h f g : Nat} (hf : ps.face h = some f) (hlt : f < smF) (hr : (edgeOf h, g) ∈ reg) : ¬ CutEdge ps smF (edgeOf h) := by
  have := (F.X.sided _ hr).one f (F.onEdge hf)
  simp only at this
  intro h'
  have := this.2 h'
  omega

/-- The parts of an edge of a face of the source mesh have an original end. -/
theorem Facts.one_end {h x f : Nat} (hp : PartOf ps st.m0 pts sort pieces h x) (hf : ps.face h = some f) (hfn : f < n) (hh : h ∈ ps.fh f) : src st.m0 x < base ∨ st.m0.target x < base := by
  by_contra hcon
  have h1 : base ≤ src st.m0 x := by omega
  have h2 : base ≤ st.m0.target x := by omega
  obtain ⟨n1, n2⟩ := F.G.new_part hp
  have m1 := n1 h1
  have m2 := n2 h2
  have hne := (src_of F.G.divided.valid hp.2.1).2.1
  obtain ⟨a, ha, -⟩ := F.X.ends _ f _ (((reachable_wf F.G.ready.psOk).liveH_iff h).1 hp.1) (F.onEdge hf) m1
  have hl := F.few f hfn (List.ne_nil_of_mem ha) h hh
  match hq : pts (edgeOf h), hl with
  | [], _ => rw [hq] at m1; cases m1
  | [v], _ =>
    rw [hq, List.mem_singleton] at m1 m2
    exact hne (m1.trans m2.symm)

/-- The polygons of the source mesh have no common halfedge. -/
theorem Facts.flat : (o.polygons.take o.smCount).flatten.Nodup := by
  rw [F.take]
  refine F.G.apart_polys List.nodup_range (fun f hf => (F.live f).1 ?_) (fun f hf => F.sub f ?_) ?_
  · have := F.le; rw [List.mem_range] at hf; omega
  · have := F.le; rw [List.mem_range] at hf; omega
  · intro e f g hf hg h1 h2
    rw [List.mem_range] at hf hg
    exact F.two e f g h1 h2 (by simp [hf, hg])

end
end Mcut.Split
