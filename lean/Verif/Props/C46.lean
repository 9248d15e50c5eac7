import Verif.Lemmas.C46Loop
import Verif.Props.C29

/-! C46: the seam vertex sequences. -/
namespace Mcut.Seam
open Hmesh
variable {P : Type}

/-- The layout can be decoded: different sequences give different arrays. -/
theorem C46_decodable : Function.Injective encode := by
  have key : ∀ a b : List (Bool × List Nat), a.length = b.length →
      a.flatMap (fun q => q.2.length :: (if q.1 then 1 else 0) :: q.2) = b.flatMap (fun q => q.2.length :: (if q.1 then 1 else 0) :: q.2) → a = b := by
    intro a
    induction a with
    | nil => intro b hl _; exact (List.length_eq_zero_iff.1 hl.symm).symm
    | cons x a ih =>
      intro b hl he
      cases b with
      | nil => simp at hl
      | cons y b =>
        simp only [List.flatMap_cons, List.cons_append, List.cons.injEq] at he
        obtain ⟨h1, h2, h3⟩ := he
        obtain ⟨h4, h5⟩ := List.append_inj h3 h1
        have h6 : x.1 = y.1 := by
          cases hx : x.1 <;> cases hy : y.1 <;> simp [hx, hy] at h2 <;> rfl
        rw [ih b (by simpa using hl) h5, Prod.ext h6 h4]
  intro a b h
  unfold encode at h
  simp only [List.cons.injEq] at h
  exact key a b h.1 h.2

theorem dedup_component {m : Mesh P} {S T : List Nat} (h : Component m S.dedup T) : Component m S T :=
  ⟨h.ne, fun v hv => List.mem_dedup.1 (h.sub v hv), fun u hu v hv hn => h.closed u hu v (List.mem_dedup.2 hv) hn,
    fun u hu v hv => Relation.ReflTransGen.mono (p := fun a b => b ∈ S ∧ Nbr m a b) (fun _ _ h => ⟨List.mem_dedup.1 h.1, h.2⟩) u v (h.conn u hu v hv)⟩

theorem dedup_degree {m : Mesh P} {S : List Nat} (v : Nat) : degree m S.dedup v = degree m S v :=
  degree_congr (fun x _ => by simp)

theorem dedup_isolated {m : Mesh P} {S : List Nat} : NoIsolated m S.dedup ↔ NoIsolated m S := by
  unfold NoIsolated; simp

/-- C46: for every consistent mesh and every set of seam vertices in which no vertex is without a neighbour, and for every order in which the hash
map is iterated over: the array has the documented layout and its sequences are the connected components of the seam, every seam vertex being
listed exactly once; and if the seam consists of paths and cycles, then consecutive entries are joined by edges, the loop flag is exact and
open sequences run from end point to end point. -/
theorem C46_sequences {m : Mesh P} (C : Consistent m) {order : Nat → List Nat → List Nat} (ho : ∀ k l, (order k l).Perm l) {S : List Nat} (hS : S ≠ [])
    (N : NoIsolated m S) : ∃ seqs, sequences m order S = .ok (encode seqs) ∧ Partitions m S seqs ∧ (Linear m S → ∀ q ∈ seqs, Ordered m S q) := by
  have hne : S.dedup ≠ [] := by
    intro h
    obtain ⟨x, hx⟩ := List.exists_mem_of_ne_nil S hS
    have := List.mem_dedup.2 hx
    rw [h] at this; simp at this
  obtain ⟨seqs, e, ⟨p1, p2, p3⟩, o⟩ := seqLoop_spec C ho (S.dedup.length + 1) S.dedup UNDEF [] 0 1 (List.nodup_dedup S) hne (by omega) rfl (dedup_isolated.2 N)
  refine ⟨seqs, ?_, ⟨p1, fun v => by rw [p2 v]; exact List.mem_dedup, fun q hq => dedup_component (p3 q hq)⟩, ?_⟩
  · rw [sequences, e, encode]; simp
  · intro L q hq
    have L' : Linear m S.dedup := by
      intro v hv
      obtain ⟨a, b⟩ := L v (List.mem_dedup.1 hv)
      exact ⟨by rw [dedup_degree]; exact a, fun h h' s hh hh' hs => b h h' s hh hh' (List.mem_dedup.1 hs)⟩
    obtain ⟨o1, o2⟩ := o L' q hq
    exact ⟨o1, fun hne => ⟨(o2 hne).1, fun hf => by
      have := (o2 hne).2 hf
      rw [dedup_degree, dedup_degree] at this
      exact this⟩⟩

/-- What the precondition is: the computation has undefined behaviour exactly if there is no seam vertex or one of them has no neighbour among them. -/
theorem C46_undefined_exactly {m : Mesh P} (C : Consistent m) {order : Nat → List Nat → List Nat} (ho : ∀ k l, (order k l).Perm l) (S : List Nat) :
    (∃ e, sequences m order S = .error e) ↔ S = [] ∨ ¬ NoIsolated m S := by
  constructor
  · rintro ⟨e, h⟩
    by_contra hc
    push Not at hc
    obtain ⟨seqs, h2, -⟩ := C46_sequences C ho hc.1 hc.2
    rw [h] at h2; simp at h2
  · rintro (rfl | h)
    · refine ⟨.ub, ?_⟩
      have : order 0 [] = [] := List.Perm.eq_nil (ho 0 [])
      simp [sequences, seqLoop, this]
    · refine ⟨.ub, ?_⟩
      exact seqLoop_isolated C ho _ S.dedup UNDEF [] 0 1 (List.nodup_dedup S) (by omega) rfl (by rwa [dedup_isolated])

/-- The bound on the iterations in the model is never reached: the loops of the code end. -/
theorem C46_terminates {m : Mesh P} (C : Consistent m) {order : Nat → List Nat → List Nat} (ho : ∀ k l, (order k l).Perm l) (S : List Nat) :
    sequences m order S ≠ .error .fuel := by
  by_cases hS : S = []
  · subst hS
    have : order 0 [] = [] := List.Perm.eq_nil (ho 0 [])
    simp [sequences, seqLoop, this]
  · by_cases N : NoIsolated m S
    · obtain ⟨seqs, h2, -⟩ := C46_sequences C ho hS N
      rw [h2]; simp
    · rw [sequences, seqLoop_isolated C ho _ S.dedup UNDEF [] 0 1 (List.nodup_dedup S) (by omega) rfl (by rwa [dedup_isolated])]
      simp

/-- A mesh of four faces: two triangles that share an edge; a quad and a triangle that share an edge. -/
def demoMesh : Mesh Unit := (runAll (Mesh.empty ())
  (List.replicate 9 (.addVertex ()) ++ [.addFace [0, 1, 2], .addFace [3, 4, 5, 6], .addFace [0, 2, 7], .addFace [6, 5, 8]])).getD (Mesh.empty ())

theorem demo_consistent : Consistent demoMesh := by
  have h : (runAll (Mesh.empty ()) (List.replicate 9 (.addVertex ()) ++ [.addFace [0, 1, 2], .addFace [3, 4, 5, 6], .addFace [0, 2, 7], .addFace [6, 5, 8]])).isSome = true := by
    decide +kernel
  obtain ⟨m, hm⟩ := Option.isSome_iff_exists.1 h
  unfold demoMesh
  rw [hm]
  exact C29_consistent (runAll_reachable _ _ _ Reachable.empty hm)

theorem demo_linear {S : List Nat} (h : ∀ v ∈ S, (degree demoMesh S v = 1 ∨ degree demoMesh S v = 2) ∧
    ∀ x ∈ demoMesh.vh v, ∀ y ∈ demoMesh.vh v, ∀ s ∈ S, demoMesh.source x = some s → demoMesh.source y = some s → x = y) : Linear demoMesh S :=
  fun v hv => ⟨(h v hv).1, fun x y s hx hy hs => (h v hv).2 x hx y hy s hs⟩

theorem Linear.noIsolated {m : Mesh P} (C : Consistent m) {S : List Nat} (L : Linear m S) : NoIsolated m S := by
  intro v hv
  have : 0 < degree m S v := by have := (L v hv).1; omega
  rw [degree, List.countP_pos_iff] at this
  obtain ⟨h, hh, h2⟩ := this
  simp only [decide_eq_true_eq] at h2
  obtain ⟨s, hs, h3⟩ := h2
  have := (C.incidence v h).2.1 hh
  exact ⟨s, hs, h, this.1, this.2, h3⟩

/-- Non-vacuity: a cycle and a path, with a seed in the middle of the path. -/
example : Consistent demoMesh ∧ Linear demoMesh [0, 1, 2, 3, 4, 6] ∧ NoIsolated demoMesh [0, 1, 2, 3, 4, 6] ∧
    sequences demoMesh (fun _ l => l) [0, 1, 2, 3, 4, 6] = .ok (encode [(true, [2, 0, 1]), (false, [6, 3, 4])]) := by
  have L : Linear demoMesh [0, 1, 2, 3, 4, 6] := demo_linear (by decide +kernel)
  exact ⟨demo_consistent, L, L.noIsolated demo_consistent, by decide +kernel⟩

/-- The restriction to paths and cycles is needed, and it is a restriction on all edges between seam vertices, not only on those of the seam: with the
seam vertices 4, 5, 6, 8, where 5, 6, 8 are the corners of a face, the entries 4 and 6 are next to each other although no edge joins them. -/
theorem C46_branching_fails : Consistent demoMesh ∧ NoIsolated demoMesh [4, 5, 8, 6] ∧
    sequences demoMesh (fun _ l => l) [4, 5, 8, 6] = .ok (encode [(false, [8, 5, 4, 6])]) ∧ ¬ Nbr demoMesh 4 6 := by
  refine ⟨demo_consistent, ?_, by decide +kernel, ?_⟩
  · have : ∀ v ∈ [4, 5, 8, 6], ∃ h ∈ demoMesh.vh v, ∃ u ∈ [4, 5, 8, 6], demoMesh.source h = some u := by decide +kernel
    intro v hv
    obtain ⟨h, hh, u, hu, hs⟩ := this v hv
    have := (demo_consistent.incidence v h).2.1 hh
    exact ⟨u, hu, h, this.1, this.2, hs⟩
  · intro hn
    obtain ⟨x, hx, hs⟩ := hn.mem demo_consistent
    have : ∀ x ∈ demoMesh.vh 6, demoMesh.source x ≠ some 4 := by decide +kernel
    exact this x hx hs

end Mcut.Seam
