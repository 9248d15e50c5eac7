import Verif.Lemmas.C74Simple
import Verif.Lemmas.C74All

/-! Lemmas for C74: the polygons of a face that is divided cleanly. -/
namespace Mcut.Trace
open Mcut.Hmesh Mcut.Registry Mcut.CutEdges Mcut.Boundary Mcut.Extract
variable {P : Type} {d : P} {ps : Mesh P} {base : Nat} {pts : Nat → List Nat} {sort : Nat → Nat → List Nat → List Nat} {edges : List Nat} {c : CutEdges.St P} {st : Boundary.St P}
  {pieces : Nat → List Nat} {reg : List (Nat × Nat)}

theorem Given.joins (G : Given d ps base pts sort edges c st pieces reg) {f x : Nat} (hx : edgeOf x ∈ c.faceEdges f) : Joins c.m0 (edgeOf x) (src st.m0 x) (st.m0.target x) := by
  obtain ⟨k0, k1, k2⟩ := G.cut_kept hx
  have := joins_half G.divided.valid (((reachable_wf G.divided.valid).liveH_iff x).2 k0)
  unfold Joins at this ⊢
  rw [k1, k2] at this
  exact this

theorem Given.half_of (G : Given d ps base pts sort edges c st pieces reg) {f e v w : Nat} (he : e ∈ c.faceEdges f) (hj : Joins c.m0 e v w) :
    ∃ x, edgeOf x = e ∧ src st.m0 x = v ∧ st.m0.target x = w := by
  obtain ⟨k0, k1, k2⟩ := G.cut_kept he
  have hj' : Joins st.m0 e v w := by unfold Joins at hj ⊢; rw [k1, k2]; exact hj
  obtain ⟨o1, o2, o3, -⟩ := out_spec G.divided.valid k0 hj'
  exact ⟨_, o3, o1, o2⟩

theorem endsIn_joins {m : Mesh P} {e v : Nat} (h : EndsIn m e v) : ∃ w, Joins m e v w := by
  rcases h with h | h
  · exact ⟨_, .inl ⟨h, rfl⟩⟩
  · exact ⟨_, .inr ⟨rfl, h⟩⟩

theorem joins_endsIn {m : Mesh P} {e v w : Nat} (h : Joins m e v w) : EndsIn m e v ∧ EndsIn m e w := by
  rcases h with ⟨h1, h2⟩ | ⟨h1, h2⟩
  · exact ⟨.inl h1, .inr h2⟩
  · exact ⟨.inr h2, .inl h1⟩

theorem Given.along_iff (G : Given d ps base pts sort edges c st pieces reg) {f : Nat} {I : List Nat} (hI : ∀ h, h ∈ I ↔ edgeOf h ∈ c.faceEdges f) (v w : Nat) :
    Along st.m0 I v w ↔ ∃ y ∈ c.faceEdges f, Joins c.m0 y v w := by
  constructor
  · rintro ⟨g, hg, rfl, rfl⟩
    exact ⟨_, (hI g).1 hg, G.joins ((hI g).1 hg)⟩
  · rintro ⟨y, hy, hj⟩
    obtain ⟨x, h1, h2, h3⟩ := G.half_of hy hj
    exact ⟨x, (hI x).2 (by rw [h1]; exact hy), h2, h3⟩

theorem Given.cutPath_iff (G : Given d ps base pts sort edges c st pieces reg) {f : Nat} {I : List Nat} (hI : ∀ h, h ∈ I ↔ edgeOf h ∈ c.faceEdges f) (v w : Nat) :
    Relation.ReflTransGen (Along st.m0 I) v w ↔ CutPath c f v w := by
  constructor
  · exact Relation.ReflTransGen.mono (fun a b => (G.along_iff hI a b).1) _ _
  · exact Relation.ReflTransGen.mono (fun a b => (G.along_iff hI a b).2) _ _

/-- The polygons of a face that is divided cleanly do not pass through a vertex twice. -/
theorem Given.clean (G : Given d ps base pts sort edges c st pieces reg) {part : (Nat → Bool) → List Nat → List Nat × List Nat} (hp : IsPartition part) {f : Nat} (hf : LiveF ps f)
    (one : SimpleEdges ps) (few : c.faceEdges f ≠ [] → ∀ g ∈ ps.fh f, (pts (edgeOf g)).length ≤ 1) (cl : c.faceEdges f ≠ [] → CleanCut ps pts sort c f)
    {l : List (List Nat)} (h : facePolygons ps st base reg part f = some l) : NoRepeat st.m0 l := by
  have S := G.sub hp hf h
  unfold facePolygons at h
  by_cases hc : c.faceEdges f = []
  · have : ¬ Boundary.entry st f = true := fun h => (G.entry_iff hf).1 h hc
    rw [if_neg this] at h
    obtain ⟨p, p1, p2⟩ := G.copied hf hc
    rw [p1] at h
    simp only [Option.map_some, Option.some.injEq] at h
    subst h
    have hpo := G.copy_eq hf hc p2
    subst hpo
    intro q hq
    rw [List.mem_singleton] at hq
    subst hq
    exact G.targets hf
  · rw [if_pos ((G.entry_iff hf).2 hc)] at h
    obtain ⟨l', E, I, h1, h2, h3, A, Q, rest, rfl, k2, k3, k4, k5⟩ := G.cut_few hp hf hc one (few hc)
    rw [h1] at h
    injection h with h
    subst h
    have C := cl hc
    have hIm : ∀ h, h ∈ I ↔ edgeOf h ∈ c.faceEdges f := fun h => by rw [h3.mem_iff, mem_both]
    have B := G.boundaryOf hf h2
    have hL0 := G.laid hf h2 (List.Perm.refl _)
    have hIm' : ∀ h, h ∈ (c.faceEdges f).flatMap (fun e => [halfedgeOf e 0, halfedgeOf e 1]) ↔ h ∈ I := fun h => h3.mem_iff.symm
    have L : Laid st.m0 E I := by
      refine ⟨(List.Perm.append_left E h3).nodup_iff.2 hL0.nd, ?_, ?_, ?_, ?_, ?_, hL0.step, hL0.back, hL0.sources, hL0.targets, ?_, ?_, ?_⟩
      · intro h hh; exact hL0.proper h (by rw [hIm']; exact hh)
      · intro h hh; exact hL0.flip h ((hIm' h).2 hh)
      · intro h hh; exact (hIm' _).1 (hL0.pairs h ((hIm' h).2 hh))
      · intro h hh; exact hL0.twice h ((hIm' h).2 hh)
      · intro h hh; have := hL0.oneway h hh; rw [hIm'] at this; exact this
      · intro h hh g hg g' hg'; exact hL0.one h hh g ((hIm' g).2 hg) g' ((hIm' g').2 hg')
      · intro a ha b hb x hx; exact hL0.two a ((hIm' a).2 ha) b ((hIm' b).2 hb) x ((hIm' x).2 hx)
      · intro h hh g hg; exact hL0.noDouble h hh g (by rw [hIm']; exact hg)
    have R : Ringed st.m0 E := ring_rot (G.ring hf) h2.symm
    have hon : ∀ v, v ∈ around ps pts sort f ↔ ∃ x ∈ E, src st.m0 x = v := by
      intro v
      have : v ∈ E.map (src st.m0) ↔ v ∈ around ps pts sort f := B.vertices.perm.mem_iff
      rw [← this, List.mem_map]
    have hd : NoDead st.m0 E I := by
      intro g hg
      have hgf := (hIm g).1 hg
      rcases C.noDead _ hgf _ (joins_endsIn (G.joins hgf)).2 with h | ⟨e', he', hne, hin⟩
      · exact .inl ((hon _).1 h)
      · obtain ⟨w, hw⟩ := endsIn_joins hin
        obtain ⟨x, x1, x2, -⟩ := G.half_of he' hw
        refine .inr ⟨x, hg, (hIm x).2 (by rw [x1]; exact he'), x2, ?_⟩
        rintro rfl
        apply hne
        rw [← x1]
        unfold edgeOf opposite; split <;> omega
    have hn : NonCrossing st.m0 E I := by
      intro x E1 y E2 hrot r a ha b hb r'
      have hr2 : around ps pts sort f ~r (src st.m0 x :: E1.map (src st.m0)) ++ (src st.m0 y :: E2.map (src st.m0)) := by
        have := hrot.map (src st.m0)
        rw [List.map_append, List.map_cons, List.map_cons] at this
        exact B.vertices.symm.trans this
      exact C.noCross _ _ _ _ hr2 ((G.cutPath_iff hIm _ _).1 r) _ (List.mem_map_of_mem ha) _ (List.mem_map_of_mem hb) ((G.cutPath_iff hIm _ _).1 r')
    have hrest : rest = [] := by
      cases rest with
      | nil => rfl
      | cons h t =>
        exfalso
        obtain ⟨hI, hnl⟩ := k5 h (List.mem_cons_self)
        have hgf := (hIm h).1 hI
        obtain ⟨w, w1, w2⟩ := C.anchored _ hgf _ (joins_endsIn (G.joins hgf)).2
        obtain ⟨x, x1, x2⟩ := (hon w).1 w1
        exact hnl ⟨x, x1, by rw [x2]; exact (G.cutPath_iff hIm _ _).2 w2⟩
    have hQ : Q.flatten = [] := by
      rw [hrest] at k4
      exact List.subperm_nil.1 k4
    intro p hpm
    have hpn : p.Nodup := (List.nodup_flatten.1 S.nodup).1 p hpm
    rcases List.mem_append.1 hpm with hA | hA
    · exact List.Nodup.map_on (fun x hx y hy e => no_repeat L R hd hn (k3 p hA).2 hx hy e) hpn
    · have : p = [] := by
        rw [List.flatten_eq_nil_iff] at hQ
        exact hQ p hA
      rw [this]; exact List.nodup_nil

end Mcut.Trace
