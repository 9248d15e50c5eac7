import Verif.Lemmas.C77Env

/-! Lemmas for C77: the keys and the polygons. -/
namespace Mcut.Split
open Mcut.Hmesh Mcut.Extract Mcut.Registry Mcut.CutEdges Mcut.Boundary Mcut.Trace
variable {P : Type} {d : P} {ps : Mesh P} {base : Nat} {pts : Nat → List Nat} {sort : Nat → Nat → List Nat → List Nat} {edges : List Nat} {c : CutEdges.St P} {st : Boundary.St P}
  {pieces : Nat → List Nat} {reg : List (Nat × Nat)} {smV smF n : Nat} {o : Out} {T : Nat → List Nat} {poly : Nat → List (List Nat)}

/-- The edges whose halfedges are entered. -/
def Entered (m0 : Mesh P) (smV base e : Nat) : Prop :=
  ¬ (m0.edgeVertex e 0 < base ∧ m0.edgeVertex e 1 < base) ∧ ¬ (base ≤ m0.edgeVertex e 0 ∧ m0.edgeVertex e 1 < base ∧ smV ≤ m0.edgeVertex e 1) ∧
    ¬ (m0.edgeVertex e 0 < base ∧ base ≤ m0.edgeVertex e 1 ∧ smV ≤ m0.edgeVertex e 0)

theorem mem_addKey {T : Nat → List Nat} {K : List Nat} {h x : Nat} : x ∈ addKey T K h ↔ x ∈ K ∨ (x = h ∧ T h ≠ []) := by
  unfold addKey
  split
  · rename_i hc
    rw [List.mem_append, List.mem_singleton]
    exact or_congr Iff.rfl ⟨fun e => ⟨e, hc.1⟩, fun e => e.1⟩
  · rename_i hc
    constructor
    · exact Or.inl
    · rintro (h' | ⟨rfl, h2⟩)
      · exact h'
      · by_contra h3; exact hc ⟨h2, h3⟩

theorem mem_addKeys {m0 : Mesh P} {T : Nat → List Nat} {K : List Nat} {h x : Nat} :
    x ∈ addKeys m0 smV base T K h ↔ x ∈ K ∨ (edgeOf x = edgeOf h ∧ T x ≠ [] ∧ Entered m0 smV base (edgeOf h)) := by
  unfold addKeys Entered
  simp only
  split
  · rename_i hc
    constructor
    · exact Or.inl
    · rintro (h' | ⟨-, -, h3, -⟩)
      · exact h'
      · exact absurd hc h3
  · rename_i hc1
    split
    · rename_i hc
      constructor
      · exact Or.inl
      · rintro (h' | ⟨-, -, -, h3, -⟩)
        · exact h'
        · exact absurd hc h3
    · rename_i hc2
      split
      · rename_i hc
        constructor
        · exact Or.inl
        · rintro (h' | ⟨-, -, -, -, h3⟩)
          · exact h'
          · exact absurd hc h3
      · rename_i hc3
        rw [mem_addKey, mem_addKey]
        constructor
        · rintro ((h' | ⟨rfl, h2⟩) | ⟨rfl, h2⟩)
          · exact .inl h'
          · exact .inr ⟨edge0 _, h2, hc1, hc2, hc3⟩
          · exact .inr ⟨edge1 _, h2, hc1, hc2, hc3⟩
        · rintro (h' | ⟨h1, h2, -⟩)
          · exact .inl (.inl h')
          · rcases half_cases x with h' | h'
            · rw [h1] at h'
              exact .inl (.inr ⟨h', by rw [← h']; exact h2⟩)
            · rw [h1] at h'
              exact .inr ⟨h', by rw [← h']; exact h2⟩

theorem mem_keysOf {m0 : Mesh P} {T : Nat → List Nat} {incoming : Nat → List Nat} {points : List Nat} {x : Nat} :
    x ∈ keysOf m0 smV base T incoming points ↔ T x ≠ [] ∧ Entered m0 smV base (edgeOf x) ∧ ∃ v ∈ points, ∃ g ∈ incoming v, edgeOf g = edgeOf x := by
  unfold keysOf
  have gen : ∀ (l K : List Nat), x ∈ l.foldl (addKeys m0 smV base T) K ↔ x ∈ K ∨ (T x ≠ [] ∧ Entered m0 smV base (edgeOf x) ∧ ∃ g ∈ l, edgeOf g = edgeOf x) := by
    intro l
    induction l with
    | nil => intro K; simp
    | cons a l ih =>
      intro K
      rw [List.foldl_cons, ih, mem_addKeys]
      constructor
      · rintro ((h | ⟨h1, h2, h3⟩) | ⟨h1, h2, g, h3, h4⟩)
        · exact .inl h
        · exact .inr ⟨h2, by rw [h1]; exact h3, a, List.mem_cons_self, h1.symm⟩
        · exact .inr ⟨h1, h2, g, List.mem_cons_of_mem _ h3, h4⟩
      · rintro (h | ⟨h1, h2, g, h3, h4⟩)
        · exact .inl (.inl h)
        · rcases List.mem_cons.1 h3 with rfl | h3
          · exact .inl (.inr ⟨h4.symm, h1, by rw [h4]; exact h2⟩)
          · exact .inr ⟨h1, h2, g, h3, h4⟩
  rw [gen]
  simp only [List.not_mem_nil, false_or, List.mem_flatMap]
  refine and_congr Iff.rfl (and_congr Iff.rfl ?_)
  constructor
  · rintro ⟨g, ⟨v, hv, hg⟩, he⟩; exact ⟨v, hv, g, hg, he⟩
  · rintro ⟨v, hv, g, hg, he⟩; exact ⟨g, ⟨v, hv, hg⟩, he⟩

/-- The two ends of an edge are those of its halfedges. -/
theorem ends_cases {m : Mesh P} (hr : Reachable d m) {x : Nat} (hx : LiveH m x) (Q : Nat → Nat → Prop) (h1 : Q (src m x) (m.target x)) (h2 : Q (m.target x) (src m x)) :
    Q (m.edgeVertex (edgeOf x) 0) (m.edgeVertex (edgeOf x) 1) := by
  rcases ends_of hr hx with ⟨e1, e2⟩ | ⟨e1, e2⟩ <;> rw [e1, e2] <;> assumption

section
variable (F : Facts d ps smV smF base pts sort edges c st pieces reg n o T poly)
include F

theorem Facts.head {h : Nat} (hU : OfSource o h) : ∃ i p, (T h).head? = some i ∧ i < o.smCount ∧ o.polygons[i]? = some p ∧ h ∈ p := by
  obtain ⟨p, hp, hh⟩ := hU
  obtain ⟨j, hj⟩ := List.mem_iff_getElem?.1 hp
  have hjlt : j < o.smCount := by
    obtain ⟨hl, -⟩ := List.getElem?_eq_some_iff.1 hj
    rw [List.length_take] at hl; omega
  rw [List.getElem?_take_of_lt hjlt] at hj
  have hm : j ∈ T h := ((F.used.table h).2 j).2 ⟨p, hj, hh⟩
  cases hz : T h with
  | nil => rw [hz] at hm; cases hm
  | cons i l =>
    have hi : i ∈ T h := by rw [hz]; exact List.mem_cons_self
    have hle : i ≤ j := by
      have := (F.used.table h).1
      rw [hz, List.pairwise_cons] at this
      rw [hz] at hm
      rcases List.mem_cons.1 hm with rfl | hm
      · exact Nat.le_refl _
      · exact Nat.le_of_lt (this.1 j hm)
    obtain ⟨q, hq, hhq⟩ := ((F.used.table h).2 i).1 hi
    exact ⟨i, q, rfl, by omega, hq, hhq⟩

theorem Facts.face_lt {i : Nat} {p : List Nat} (hi : o.polygons[i]? = some p) (hlt : i < o.smCount) : ∃ f, o.faceOf i = some f ∧ f < smF := by
  obtain ⟨f, -, h1, -⟩ := F.L.into hi
  have hs : (List.range n).Pairwise (· < ·) := List.pairwise_lt_range
  exact ⟨f, h1, (F.L.first hs h1).1 hlt⟩

theorem take_mem {i : Nat} {p : List Nat} (hi : o.polygons[i]? = some p) (hlt : i < o.smCount) : p ∈ o.polygons.take o.smCount :=
  List.mem_of_getElem? (i := i) (by rw [List.getElem?_take_of_lt hlt]; exact hi)

theorem Facts.polys : Polys (envOf ps smV smF base (2 * c.m0.nE) reg st.m0 st.incoming T o) (OfSource o) := by
  refine ⟨?_, ?_, ?_⟩
  · intro h hU
    obtain ⟨i, p, h1, h2, h3, h4⟩ := F.head hU
    exact ⟨i, p, h2, h3, h4⟩
  · intro i p hi hp
    have hm := take_mem F hp hi
    unfold Cyclic
    have := (F.round hm).cyclic
    have h3 := (F.round hm).three
    unfold Cyclic at this
    rw [List.isChain_iff_getElem] at this ⊢
    intro k hk
    have hlen : (p ++ p.take 1).length = p.length + 1 := by simp; omega
    have hkp : k < p.length := by omega
    refine (F.links hm ⟨k, ?_, ?_⟩).1
    · rw [List.getElem_append_left hkp]; exact List.getElem?_eq_getElem hkp
    · by_cases hl : k + 1 < p.length
      · rw [Nat.mod_eq_of_lt hl, List.getElem_append_left hl]; exact List.getElem?_eq_getElem hl
      · have e : k + 1 = p.length := by omega
        rw [List.getElem_append_right (by omega)]
        simp only [e, Nat.mod_self, Nat.sub_self, List.getElem_take]
        exact List.getElem?_eq_getElem (by omega)
  · intro i p hi hp h hh
    have hU : OfSource o h := ⟨p, take_mem F hp hi, hh⟩
    refine ⟨hU, ?_⟩
    obtain ⟨j, q, j1, j2, j3, j4⟩ := F.head hU
    have hjm : j ∈ T h := List.mem_of_head? j1
    have him : i ∈ T h := ((F.used.table h).2 i).2 ⟨p, hp, hh⟩
    obtain ⟨f, f1, f2⟩ := F.face_lt hp hi
    obtain ⟨g, g1, g2⟩ := F.face_lt j3 j2
    have := F.used.once h i him j hjm f g f1 g1 (by simp [f2, g2])
    rw [this]; exact j1

theorem Facts.keys {order points : List Nat} (hpts : ∀ v, base ≤ v → v < st.m0.nV → v ∈ points) (ho : order.Perm (keysOf st.m0 smV base T st.incoming points)) :
    Keys (envOf ps smV smF base (2 * c.m0.nE) reg st.m0 st.incoming T o) (OfSource o) order := by
  have hr := F.G.divided.valid
  obtain ⟨S, -⟩ := link_spec st.m0 (o.polygons.take o.smCount)
  have st' : ∀ h, src (envOf ps smV smF base (2 * c.m0.nE) reg st.m0 st.incoming T o).m0 h = src st.m0 h := S.src
  have tg' : ∀ h, (envOf ps smV smF base (2 * c.m0.nE) reg st.m0 st.incoming T o).m0.target h = st.m0.target h := S.target
  have hbase : (envOf ps smV smF base (2 * c.m0.nE) reg st.m0 st.incoming T o).base = base := rfl
  have hTT : (envOf ps smV smF base (2 * c.m0.nE) reg st.m0 st.incoming T o).T = T := rfl
  -- the halfedges of the source mesh are not of the cut mesh
  have small : ∀ h, OfSource o h → (base ≤ src st.m0 h ∨ base ≤ st.m0.target h) → (src st.m0 h < base → src st.m0 h < smV) ∧ (st.m0.target h < base → st.m0.target h < smV) := by
    intro h hU hi
    by_cases hc : edgeOf h < c.m0.nE
    · have := F.cut_ends hc
      exact ⟨fun h => by omega, fun h => by omega⟩
    · obtain ⟨h', f, hp, f1, f2, f3⟩ := (F.side_source (by omega)).1 hU
      obtain ⟨r, hr'⟩ := F.entry hp hi
      have hn := F.not_cut f1 f2 hr'
      obtain ⟨o1, o2⟩ := F.old_ends hp.1 hr'
      refine ⟨fun h => ?_, fun h => ?_⟩
      · rw [(F.old_part hp).1 h]; by_contra hh; exact hn (o1.1 (by omega))
      · rw [(F.old_part hp).2 h]; by_contra hh; exact hn (o2.1 (by omega))
  refine ⟨?_, ?_, ?_, ?_, ?_⟩
  · intro h hU hi
    unfold isInter at hi
    rw [st', tg', hbase] at hi
    rw [ho.mem_iff, mem_keysOf]
    have hl := F.liveH hU
    obtain ⟨s1, s2⟩ := small h hU hi
    refine ⟨F.used_ne hU, ?_, ?_⟩
    · refine ends_cases hr hl (fun a b => ¬ (a < base ∧ b < base) ∧ ¬ (base ≤ a ∧ b < base ∧ smV ≤ b) ∧ ¬ (a < base ∧ base ≤ b ∧ smV ≤ a)) ?_ ?_ <;>
      · refine ⟨fun h => by omega, fun h => by omega, fun h => by omega⟩
    · rcases hi with hi | hi
      · have ht : st.m0.target (opposite h) = src st.m0 h := by rw [(src_of hr hl).1]
        refine ⟨_, hpts _ hi (F.lt_nV hl).1, opposite h, ((F.G.divided.incoming _ hi).2 _).2 ⟨F.live_opp hl, ht⟩, edgeOf_opposite h⟩
      · exact ⟨_, hpts _ hi (F.lt_nV hl).2, h, ((F.G.divided.incoming _ hi).2 _).2 ⟨hl, rfl⟩, rfl⟩
  · intro g hg
    rw [ho.mem_iff, mem_keysOf] at hg
    exact hg.1
  · intro g hg hs ht
    rw [st', hbase] at hs
    rw [tg', hbase] at ht
    rw [ho.mem_iff, mem_keysOf] at hg
    obtain ⟨hT, hE, v, hv, k, hk, he⟩ := hg
    have hl : LiveH st.m0 g := by
      by_cases hb : base ≤ v
      · have := (((F.G.divided.incoming v hb).2 k).1 hk).1
        have h1 := ((reachable_wf hr).liveH_iff k).1 this
        refine ((reachable_wf hr).liveH_iff g).2 ?_
        change LiveE st.m0 (edgeOf g)
        rw [← he]; exact h1
      · rw [F.G.divided.noOthers v (by omega)] at hk; cases hk
    have hsm : src st.m0 g < smV := by
      by_contra hn
      unfold Entered at hE
      obtain ⟨-, h2, h3⟩ := hE
      rcases ends_of hr hl with ⟨e1, e2⟩ | ⟨e1, e2⟩ <;> rw [e1, e2] at h2 h3 <;> omega
    have hn : c.m0.nE ≤ edgeOf g := by
      by_contra hc
      have := F.cut_ends (h := g) (by omega)
      omega
    obtain ⟨h', hp⟩ := F.G.part_every hl hn
    obtain ⟨r, hr'⟩ := F.entry hp (.inr ht)
    have := (F.old_ends hp.1 hr').1
    rw [← (F.old_part hp).1 hs] at this
    exact F.source_of hp hT hr' (fun h => by have := this.2 h; omega)
  · intro g hg i hi hlt
    rw [hTT] at hi
    obtain ⟨p, h1, h2⟩ := ((F.used.table g).2 i).1 (List.mem_of_head? hi)
    exact ⟨p, take_mem F h1 hlt, h2⟩
  · intro g hU
    obtain ⟨i, p, h1, h2, h3, h4⟩ := F.head hU
    refine ⟨i, p, h1, h2, h3, ?_⟩
    have hm := take_mem F h3 h2
    have h0 : p.idxOf g < p.length := List.idxOf_lt_length_iff.2 h4
    have hk : (p.idxOf g + p.length - 1) % p.length < p.length := Nat.mod_lt _ (by omega)
    rw [List.getElem?_eq_getElem hk]
    refine (F.links hm ⟨_, List.getElem?_eq_getElem hk, ?_⟩).2.symm
    have : ((p.idxOf g + p.length - 1) % p.length + 1) % p.length = p.idxOf g := by
      by_cases hz : p.idxOf g = 0
      · rw [hz, Nat.zero_add, Nat.mod_eq_of_lt (by omega : p.length - 1 < p.length), show p.length - 1 + 1 = p.length by omega, Nat.mod_self]
      · rw [show p.idxOf g + p.length - 1 = p.idxOf g - 1 + p.length by omega, Nat.add_mod_right, Nat.mod_eq_of_lt (by omega : p.idxOf g - 1 < p.length),
          show p.idxOf g - 1 + 1 = p.idxOf g by omega, Nat.mod_eq_of_lt h0]
    rw [this, List.getElem?_eq_getElem h0, List.getElem_idxOf]

end
end Mcut.Split
