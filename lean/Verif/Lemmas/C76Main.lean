import Verif.Lemmas.C76

/-! Lemmas for C76: what the code reads off at a halfedge. -/
namespace Mcut.Trace
open Mcut.Hmesh Mcut.Registry Mcut.CutEdges Mcut.Boundary
variable {P : Type} {d : P} {ps : Mesh P} {base : Nat} {pts : Nat → List Nat} {sort : Nat → Nat → List Nat → List Nat} {edges : List Nat} {c : CutEdges.St P} {st : Boundary.St P}
  {pieces : Nat → List Nat} {reg : List (Nat × Nat)} {smV smF : Nat}

/-- The face of the registry entry is the tested face. -/
theorem tested (X : Crossing ps smV smF base pts c reg) {r : Nat × Nat} (hr : r ∈ reg) : testedFace ps smV smF r = some r.2 := by
  have S := X.sided r hr
  have V := X.vertex r hr
  have hf := S.face
  unfold testedFace entryFaces
  have : (some r.2).bind (fun g => if (if smV ≤ ps.edgeVertex r.1 0 then g < smF else smF ≤ g) then some g else none) = some r.2 := by
    rw [Option.bind_some, if_pos]
    by_cases hc : CutEdge ps smF r.1
    · rw [if_pos (V.2 hc)]
      by_contra hn
      exact (hf.1 (by omega)) hc
    · rw [if_neg (fun h => hc (V.1 h))]
      exact hf.2 hc
  rw [List.findSome?_cons, this]

/-- Polygons `i` and `j` meet after halfedge `x` of `i`. -/
def MeetAt (ps m0 : Mesh P) (smF base : Nat) (pts : Nat → List Nat) (sort : Nat → Nat → List Nat → List Nat) (pieces : Nat → List Nat) (reg : List (Nat × Nat)) (c : CutEdges.St P) (down : Nat → Nat → Prop)
    (o : Out) (i j : Nat) (p : List Nat) (x : Nat) : Prop :=
  ∃ f q y z h g, o.faceOf i = some f ∧ o.faceOf j = some f ∧ f < smF ∧ o.polygons[j]? = some q ∧ Follows p x y ∧ Follows q (opposite y) z ∧
    edgeOf y ∈ c.faceEdges f ∧ Arrives ps m0 base pts sort pieces reg h g x ∧ Departs ps m0 base pts sort pieces reg h g z ∧ down h g

theorem meet_iff {m0 : Mesh P} {down : Nat → Nat → Prop} {o : Out} {i j : Nat} : Meet ps m0 smF base pts sort pieces reg c down o i j ↔
    ∃ p x, o.polygons[i]? = some p ∧ x ∈ p ∧ MeetAt ps m0 smF base pts sort pieces reg c down o i j p x := by
  constructor
  · rintro ⟨f, p, q, x, y, z, h, g, h1, h2, h3, h4, h5, h6, h7⟩
    exact ⟨p, x, h4, h6.mem.1, f, q, y, z, h, g, h1, h2, h3, h5, h6, h7⟩
  · rintro ⟨p, x, h4, -, f, q, y, z, h, g, h1, h2, h3, h5, h6, h7⟩
    exact ⟨f, p, q, x, y, z, h, g, h1, h2, h3, h4, h5, h6, h7⟩

theorem follows_fun {p : List Nat} (hn : p.Nodup) {k x y : Nat} (hk : p[k]? = some x) (h : Follows p x y) : p[(k + 1) % p.length]? = some y := by
  obtain ⟨k', h1, h2⟩ := h
  have := (List.getElem?_inj (List.getElem?_eq_some_iff.1 hk).1 hn).1 (hk.trans h1.symm)
  rw [this]; exact h2

theorem verdict_spec (G : Given d ps base pts sort edges c st pieces reg) (X : Crossing ps smV smF base pts c reg) {faces : List Nat} (hs : faces.Pairwise (· < ·))
    (hfaces : ∀ f, f ∈ faces ↔ LiveF ps f) {poly : Nat → List (List Nat)} {o : Out} (L : Listed smF c faces poly o) (U : ∀ f ∈ faces, FaceUses ps pts sort pieces c st.m0 f (poly f))
    (C : ∀ f ∈ faces, FaceCross ps pts sort pieces c st.m0 f (poly f)) {T : Nat → List Nat} (Us : Used ps smF pts sort pieces c st.m0 o T)
    {falls : Nat → Nat → Nat → Option Bool} {down : Nat → Nat → Prop}
    (hfalls : ∀ h g x, Arrives ps st.m0 base pts sort pieces reg h g x → ∃ b, falls g (src st.m0 x) (st.m0.target x) = some b ∧ (b = true ↔ down h g))
    {i : Nat} (hi : i ∈ o.sm) {p : List Nat} (hp : o.polygons[i]? = some p) {k x : Nat} (hk : p[k]? = some x) :
    ∃ r, verdict ps st.m0 smV smF base (2 * c.m0.nE) reg falls T o.smCount p x k = some r ∧
      ∀ j, r = some j ↔ MeetAt ps st.m0 smF base pts sort pieces reg c down o i j p x := by
  obtain ⟨f, hfi, hfs, hfc⟩ := (L.sm.2 i).1 hi
  obtain ⟨f', hf, hf', hpf⟩ := L.into hp
  rw [hfi] at hf'
  obtain rfl := Option.some.inj hf'
  have hlf := (hfaces f).1 hf
  have hx := List.mem_of_getElem? hk
  have hxl : x ∈ (poly f).flatten := List.mem_flatten.2 ⟨p, hpf, hx⟩
  have hlive := (U f hf).live x hxl
  have hnp : p.Nodup := Us.simple p (List.mem_of_getElem? hp)
  have hx2 : x / 2 = edgeOf x := rfl
  unfold verdict
  by_cases hb : st.m0.target x < base
  · rw [if_pos hb]
    refine ⟨none, rfl, fun j => ⟨(fun h => by cases h), ?_⟩⟩
    rintro ⟨_, _, _, _, _, _, _, _, _, _, _, _, _, A, _⟩
    have := A.point.1
    omega
  rw [if_neg hb]
  by_cases hcut : edgeOf x < c.m0.nE
  · -- a cut halfedge
    have hxc := (U f hf).cut x hxl hcut
    obtain ⟨e1, e2⟩ := joins_endsIn (G.joins hxc)
    have hsb := G.cutEnds f _ hxc _ e1
    obtain ⟨r, hr⟩ := Option.isSome_iff_exists.1 (X.known f _ hxc _ e2)
    rw [hr, Option.bind_some, if_neg (by omega)]
    refine ⟨none, rfl, fun j => ⟨(fun h => by cases h), ?_⟩⟩
    rintro ⟨_, _, _, _, h, _, _, _, _, _, _, _, _, A, _⟩
    have := (G.pieceLive (((reachable_wf G.ready.psOk).liveH_iff h).1 A.part.1) _ A.part.2.2.1).2
    omega
  · have hxo := ((U f hf).boundary x (by omega)).1 hxl
    obtain ⟨h, hh, hxs⟩ := List.mem_flatMap.1 hxo
    have hlh := (G.live hlf hh).1
    have hpart := (G.part_iff hlh).2 hxs
    obtain ⟨-, -, -, h4⟩ := G.on_side hlf hh hxs
    have hv : st.m0.target x ∈ pts (edgeOf h) := by
      rcases h4 with h4 | h4
      · have := (G.old hlf hh).2; omega
      · exact h4
    obtain ⟨n, g, hn, hr⟩ := (G.points _ _).1 hv
    have hr' : reg[st.m0.target x - base]? = some (edgeOf h, g) := by rw [hn, Nat.add_sub_cancel_left]; exact hr
    have A : Arrives ps st.m0 base pts sort pieces reg h g x := ⟨hpart, by omega, hr'⟩
    obtain ⟨b, hfb, hbd⟩ := hfalls h g x A
    have hent : enters ps st.m0 smV smF falls (edgeOf h, g) x = some b := by
      unfold enters
      rw [tested X (List.mem_of_getElem? hr), Option.bind_some]; exact hfb
    rw [hr', Option.bind_some, if_pos (Or.inr (by omega)), hent, Option.bind_some]
    cases b with
    | false =>
      rw [if_neg (by simp)]
      refine ⟨none, rfl, fun j => ⟨(fun h => by cases h), ?_⟩⟩
      rintro ⟨_, _, _, _, h', g', _, _, _, _, _, _, _, A', _, hd⟩
      obtain rfl := G.part_one A.part A'.part
      have := A.point.2.symm.trans A'.point.2
      simp only [Option.some.injEq, Prod.mk.injEq, true_and] at this
      subst this
      exact absurd (hbd.2 hd) (by simp)
    | true =>
      rw [if_pos rfl]
      obtain ⟨y, hy, hyc, q, hq, z, hz, hzs, hzv⟩ := (C f hf).ahead p hpf x hx h hh hxs hv
      obtain ⟨j, hj, hjf⟩ := L.out hf hq
      have hyk := follows_fun hnp hk hy
      have hjT : j ∈ T (opposite y) := ((Us.table _).2 j).2 ⟨q, hj, hz.mem.1⟩
      have hfind : (T (opposite y)).find? (fun j => decide (j < o.smCount)) = some j := by
        cases hfd : (T (opposite y)).find? (fun j => decide (j < o.smCount)) with
        | none =>
          have := List.find?_eq_none.1 hfd j hjT
          simp only [decide_eq_true_eq] at this
          exact absurd ((L.first hs hjf).2 hfs) this
        | some j' =>
          have h1 := List.mem_of_find?_eq_some hfd
          have h2 := List.find?_some hfd
          simp only [decide_eq_true_eq] at h2
          obtain ⟨q', hq', -⟩ := ((Us.table _).2 j').1 h1
          obtain ⟨f2, -, hf2, -⟩ := L.into hq'
          have hf2s := (L.first hs hf2).1 h2
          rw [Us.once _ j' h1 j hjT f2 f hf2 hjf (by simp [hf2s, hfs])]
      have hnb : neighbour T o.smCount p k = some j := by
        unfold neighbour
        rw [hyk, Option.bind_some, hfind]
      rw [hnb]
      have D : Departs ps st.m0 base pts sort pieces reg h g z := by
        refine ⟨(G.part_iff hlh).2 hzs, by omega, ?_⟩
        rw [hzv]; exact hr'
      refine ⟨some j, rfl, fun j' => ?_⟩
      constructor
      · intro e
        obtain rfl := Option.some.inj e
        exact ⟨f, q, y, z, h, g, hfi, hjf, hfs, hj, hy, hz, hyc, A, D, hbd.1 rfl⟩
      · rintro ⟨f2, q', y', z', _, _, hfi', hjf', _, hj', hy', hz', _⟩
        rw [hfi] at hfi'
        obtain rfl := Option.some.inj hfi'
        have := follows_fun hnp hk hy'
        rw [hyk] at this
        obtain rfl := Option.some.inj this
        have hjT' : j' ∈ T (opposite y) := ((Us.table _).2 j').2 ⟨q', hj', hz'.mem.1⟩
        rw [Us.once _ j' hjT' j hjT f f hjf' hjf Iff.rfl]

/-- Above and below are the two sides of the meetings. -/
theorem above_iff (G : Given d ps base pts sort edges c st pieces reg) {faces : List Nat} (hfaces : ∀ f, f ∈ faces ↔ LiveF ps f) {poly : Nat → List (List Nat)} {o : Out}
    (L : Listed smF c faces poly o) (U : ∀ f ∈ faces, FaceUses ps pts sort pieces c st.m0 f (poly f)) (C : ∀ f ∈ faces, FaceCross ps pts sort pieces c st.m0 f (poly f)) {down : Nat → Nat → Prop} (i : Nat) :
    IsAbove ps st.m0 smF base pts sort pieces reg down o i ↔ ∃ j, Meet ps st.m0 smF base pts sort pieces reg c down o i j := by
  constructor
  · rintro ⟨f, p, x, h, g, hfi, hfs, hp, hx, A, hd⟩
    obtain ⟨f', hf, hf', hpf⟩ := L.into hp
    rw [hfi] at hf'
    obtain rfl := Option.some.inj hf'
    have hlf := (hfaces f).1 hf
    have hxl : x ∈ (poly f).flatten := List.mem_flatten.2 ⟨p, hpf, hx⟩
    have hnew := (G.pieceLive (((reachable_wf G.ready.psOk).liveH_iff h).1 A.part.1) _ A.part.2.2.1).2
    obtain ⟨h', hh, hxs⟩ := List.mem_flatMap.1 (((U f hf).boundary x hnew).1 hxl)
    have hlh := (G.live hlf hh).1
    obtain rfl := G.part_one A.part ((G.part_iff hlh).2 hxs)
    have hv : st.m0.target x ∈ pts (edgeOf h) := (G.points _ _).2 ⟨st.m0.target x - base, g, by have := A.point.1; omega, A.point.2⟩
    obtain ⟨y, hy, hyc, q, hq, z, hz, hzs, hzv⟩ := (C f hf).ahead p hpf x hx h hh hxs hv
    obtain ⟨j, hj, hjf⟩ := L.out hf hq
    exact ⟨j, f, p, q, x, y, z, h, g, hfi, hjf, hfs, hp, hj, hy, hz, hyc, A, ⟨(G.part_iff hlh).2 hzs, by rw [hzv]; exact A.point⟩, hd⟩
  · rintro ⟨j, f, p, q, x, y, z, h, g, h1, h2, h3, h4, h5, h6, h7, h8, h9, h10, h11⟩
    exact ⟨f, p, x, h, g, h1, h3, h4, h6.mem.1, h9, h11⟩

theorem below_iff (G : Given d ps base pts sort edges c st pieces reg) {faces : List Nat} (hfaces : ∀ f, f ∈ faces ↔ LiveF ps f) {poly : Nat → List (List Nat)} {o : Out}
    (L : Listed smF c faces poly o) (U : ∀ f ∈ faces, FaceUses ps pts sort pieces c st.m0 f (poly f)) (C : ∀ f ∈ faces, FaceCross ps pts sort pieces c st.m0 f (poly f)) {down : Nat → Nat → Prop} (j : Nat) :
    IsBelow ps st.m0 smF base pts sort pieces reg down o j ↔ ∃ i, Meet ps st.m0 smF base pts sort pieces reg c down o i j := by
  constructor
  · rintro ⟨f, q, z, h, g, hfi, hfs, hq, hz, D, hd⟩
    obtain ⟨f', hf, hf', hqf⟩ := L.into hq
    rw [hfi] at hf'
    obtain rfl := Option.some.inj hf'
    have hlf := (hfaces f).1 hf
    have hzl : z ∈ (poly f).flatten := List.mem_flatten.2 ⟨q, hqf, hz⟩
    have hnew := (G.pieceLive (((reachable_wf G.ready.psOk).liveH_iff h).1 D.part.1) _ D.part.2.2.1).2
    obtain ⟨h', hh, hzs⟩ := List.mem_flatMap.1 (((U f hf).boundary z hnew).1 hzl)
    have hlh := (G.live hlf hh).1
    obtain rfl := G.part_one D.part ((G.part_iff hlh).2 hzs)
    have hv : src st.m0 z ∈ pts (edgeOf h) := (G.points _ _).2 ⟨src st.m0 z - base, g, by have := D.point.1; omega, D.point.2⟩
    obtain ⟨y, hy, hyc, p, hp, x, hx, hxs, hxv⟩ := (C f hf).back q hqf z hz h hh hzs hv
    obtain ⟨i, hi, hif⟩ := L.out hf hp
    exact ⟨i, f, p, q, x, y, z, h, g, hif, hfi, hfs, hi, hq, hx, hy, hyc, ⟨(G.part_iff hlh).2 hxs, by rw [hxv]; exact D.point⟩, D, hd⟩
  · rintro ⟨i, f, p, q, x, y, z, h, g, h1, h2, h3, h4, h5, h6, h7, h8, h9, h10, h11⟩
    exact ⟨f, q, z, h, g, h2, h3, h5, h7.mem.2, h10, h11⟩

theorem sort_le (l : List Nat) : (l.mergeSort (fun a b => decide (a ≤ b))).Pairwise (· ≤ ·) := by
  have := List.pairwise_mergeSort (le := fun a b : Nat => decide (a ≤ b)) (fun a b c h1 h2 => by simp at *; omega) (fun a b => by simp; omega) l
  exact this.imp (fun h => by simpa using h)

end Mcut.Trace
