import Verif.Props.C73
import Verif.Lemmas.C74All
import Verif.Lemmas.C92
import Verif.Lemmas.C74Face

/-! # The traced polygons are a surface in the sense of C92 -/
namespace Mcut.Inner
open Mcut.Hmesh Mcut.Registry Mcut.CutEdges Mcut.Boundary Mcut.Trace
variable {P : Type} {d : P} {ps : Mesh P} {base : Nat} {pts : Nat → List Nat} {sort : Nat → Nat → List Nat → List Nat} {edges : List Nat} {c : CutEdges.St P} {st : Boundary.St P}
  {pieces : Nat → List Nat} {reg : List (Nat × Nat)} {part : (Nat → Bool) → List Nat → List Nat × List Nat}

theorem closed_of_round {m : Mesh P} {p : List Nat} (R : Round m p) : ∀ x ∈ cycPairs p, m.target x.1 = src m x.2 := by
  rintro ⟨a, b⟩ h
  obtain ⟨i, h1, h2⟩ := (cyc_iff p a b).1 h
  obtain ⟨hl, e1⟩ := List.getElem?_eq_some_iff.1 h1
  by_cases hi : i + 1 < p.length
  · rw [Nat.mod_eq_of_lt hi] at h2
    obtain ⟨_, e2⟩ := List.getElem?_eq_some_iff.1 h2
    have := List.isChain_iff_getElem.1 R.chain i (by omega)
    rw [e1, e2] at this
    exact this
  · rw [show i + 1 = p.length by omega, Nat.mod_self] at h2
    refine R.back b a (by rw [List.head?_eq_getElem?]; exact h2) ?_
    rw [List.getLast?_eq_getElem?, show p.length - 1 = i by omega]
    exact h1

theorem traced_surface (G : Given d ps base pts sort edges c st pieces reg) (one : SimpleEdges ps) (hp : IsPartition part) {smF n : Nat} (le : smF ≤ n) (live : ∀ f, f < n ↔ LiveF ps f)
    (few : ∀ f, f < n → c.faceEdges f ≠ [] → ∀ h ∈ ps.fh f, (pts (edgeOf h)).length ≤ 1) (two : ∀ e f g, e ∈ c.faceEdges f → e ∈ c.faceEdges g → (f < smF ↔ g < smF) → f = g) :
    ∃ o T, sequential ps st smF base reg part (List.range n) = some o ∧ users st.m0.numHalfedges o.polygons = some T ∧ Surface st.m0 base o.polygons T ∧ ∀ p ∈ o.polygons, ∀ h ∈ p, LiveH st.m0 h := by
  obtain ⟨o, T, e, hT, U⟩ := C73_used_partial G one part hp smF (List.range n) List.nodup_range (fun f => by rw [List.mem_range]; exact live f) (fun f hf => few f (List.mem_range.1 hf)) two
  obtain ⟨poly, hpoly, L, -, -⟩ := G.listed hp le (fun f hf => (live f).1 hf) e
  have sub : ∀ p ∈ o.polygons, ∃ f, f < n ∧ p ∈ poly f := by
    intro p hp
    rw [L.polygons] at hp
    obtain ⟨f, hf, hp⟩ := List.mem_flatMap.1 hp
    exact ⟨f, List.mem_range.1 hf, hp⟩
  have liveH : ∀ p ∈ o.polygons, ∀ h ∈ p, LiveH st.m0 h := by
    intro p hp h hh
    obtain ⟨f, hf, hpf⟩ := sub p hp
    exact (hpoly f hf).2.live h (List.mem_flatten.2 ⟨p, hpf, hh⟩)
  refine ⟨o, T, e, hT, ⟨fun h e => (U.table h).2 e, U.simple, ?_, ?_, ?_⟩, liveH⟩
  · intro p hp h hh
    have := src_of G.divided.valid (liveH p hp h hh)
    exact ⟨this.1, this.2.2.1⟩
  · intro p hp
    obtain ⟨f, hf, hpf⟩ := sub p hp
    exact closed_of_round ((hpoly f hf).2.round p hpf)
  · intro e e' p p' h he he' hm hm' hv
    have l := liveH p (List.mem_of_getElem? he) h hm
    have m1 := ((U.table h).2 e).2 ⟨p, he, hm⟩
    have m2 := ((U.table h).2 e').2 ⟨p', he', hm'⟩
    by_cases hc : edgeOf h < c.m0.nE
    · exfalso
      obtain ⟨f, -, hf⟩ := U.cut h hc e m1
      obtain ⟨e1, e2⟩ := joins_endsIn (G.joins hf)
      have b1 := G.cutEnds f _ hf _ e1
      have b2 := G.cutEnds f _ hf _ e2
      omega
    · obtain ⟨h0, h1, -⟩ := C73_parts G h l (by omega)
      cases hf : ps.face h0 with
      | none => rw [U.free h0 h h1 hf] at m1; simp at m1
      | some f =>
        obtain ⟨i, hi, -⟩ := U.side h0 h f h1 hf
        rw [hi, List.mem_singleton] at m1 m2
        rw [m1, m2]

end Mcut.Inner
