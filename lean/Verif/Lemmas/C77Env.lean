import Verif.Lemmas.C77Scene

/-! Lemmas for C77: the walks meet what they rely on. -/
namespace Mcut.Split
open Mcut.Hmesh Mcut.Extract Mcut.Registry Mcut.CutEdges Mcut.Boundary Mcut.Trace
variable {P : Type} {d : P} {ps : Mesh P} {base : Nat} {pts : Nat → List Nat} {sort : Nat → Nat → List Nat → List Nat} {edges : List Nat} {c : CutEdges.St P} {st : Boundary.St P}
  {pieces : Nat → List Nat} {reg : List (Nat × Nat)} {smV smF n : Nat} {o : Out} {T : Nat → List Nat} {poly : Nat → List (List Nat)}

theorem _root_.Mcut.Trace.Round.cyclic {m : Mesh P} {p : List Nat} (R : Round m p) : Cyclic (fun a b => m.target a = src m b) p := by
  unfold Cyclic
  rw [List.isChain_append]
  refine ⟨R.chain, ?_, ?_⟩
  · cases p with
    | nil => simp
    | cons a l => simp
  · intro x hx y hy
    cases p with
    | nil => cases hx
    | cons a l =>
      simp only [List.take_succ_cons, List.take_zero, List.head?_cons, Option.mem_def, Option.some.injEq] at hy
      exact R.back y x (by simp [hy]) hx

theorem lt_iff {h k : Nat} : h < 2 * k ↔ edgeOf h < k := by unfold edgeOf; omega

section
variable (F : Facts d ps smV smF base pts sort edges c st pieces reg n o T poly)
include F

theorem Facts.poly_in {p : List Nat} (hp : p ∈ o.polygons.take o.smCount) : ∃ f, f < smF ∧ p ∈ poly f := by
  rw [F.take] at hp
  obtain ⟨f, hf, hp⟩ := List.mem_flatMap.1 hp
  exact ⟨f, List.mem_range.1 hf, hp⟩

theorem Facts.round {p : List Nat} (hp : p ∈ o.polygons.take o.smCount) : Round st.m0 p := by
  obtain ⟨f, hf, hp⟩ := F.poly_in hp
  exact (F.sub f (by have := F.le; omega)).round p hp

theorem Facts.links {p : List Nat} (hp : p ∈ o.polygons.take o.smCount) {a b : Nat} (h : Follows p a b) :
    (link st.m0 (o.polygons.take o.smCount)).next a = some b ∧ (link st.m0 (o.polygons.take o.smCount)).prev b = some a :=
  (link_spec st.m0 _).2 F.flat p hp a b h

theorem Facts.used_ne {h : Nat} (hU : OfSource o h) : T h ≠ [] := by
  obtain ⟨p, hp, hh⟩ := hU
  obtain ⟨i, hi⟩ := List.mem_iff_getElem?.1 (List.mem_of_mem_take hp)
  exact List.ne_nil_of_mem (((F.used.table h).2 i).2 ⟨p, hi, hh⟩)

theorem Facts.live_opp {h : Nat} (hl : LiveH st.m0 h) : LiveH st.m0 (opposite h) := (src_of F.G.divided.valid hl).2.2.2.2

theorem Facts.lt_nV {h : Nat} (hl : LiveH st.m0 h) : src st.m0 h < st.m0.nV ∧ st.m0.target h < st.m0.nV := by
  have C := C29_consistent F.G.divided.valid
  obtain ⟨s1, -, -, -, s5⟩ := src_of F.G.divided.valid hl
  exact ⟨by rw [s1]; exact ((C.opp _ s5).2.2.2.2.2.2.1).1, ((C.opp _ hl).2.2.2.2.2.2.1).1⟩

theorem Facts.cut_ends {h : Nat} (hc : edgeOf h < c.m0.nE) : base ≤ src st.m0 h ∧ base ≤ st.m0.target h := by
  obtain ⟨f, -, he⟩ := F.cutIn _ hc
  have j := F.G.joins he
  obtain ⟨e1, e2⟩ := joins_endsIn j
  exact ⟨F.G.cutEnds f _ he _ e1, F.G.cutEnds f _ he _ e2⟩

/-- The environment of the stage. -/
theorem Facts.scene : Scene (envOf ps smV smF base (2 * c.m0.nE) reg st.m0 st.incoming T o) (OfSource o) := by
  have hr := F.G.divided.valid
  obtain ⟨S, -⟩ := link_spec st.m0 (o.polygons.take o.smCount)
  have st' : ∀ h, src (envOf ps smV smF base (2 * c.m0.nE) reg st.m0 st.incoming T o).m0 h = src st.m0 h := S.src
  have tg' : ∀ h, (envOf ps smV smF base (2 * c.m0.nE) reg st.m0 st.incoming T o).m0.target h = st.m0.target h := S.target
  have nV' : (envOf ps smV smF base (2 * c.m0.nE) reg st.m0 st.incoming T o).m0.nV = st.m0.nV := S.nV
  have hbase : (envOf ps smV smF base (2 * c.m0.nE) reg st.m0 st.incoming T o).base = base := rfl
  have hnc : (envOf ps smV smF base (2 * c.m0.nE) reg st.m0 st.incoming T o).numCut = 2 * c.m0.nE := rfl
  have hTT : (envOf ps smV smF base (2 * c.m0.nE) reg st.m0 st.incoming T o).T = T := rfl
  have sideOld : ∀ h, OfSource o h → 2 * c.m0.nE ≤ h → src st.m0 h < base ∨ st.m0.target h < base := by
    intro h hU hn
    have hn' : c.m0.nE ≤ edgeOf h := by unfold edgeOf; omega
    obtain ⟨h', f, hp, f1, f2, f3⟩ := (F.side_source hn').1 hU
    exact F.one_end hp f1 (by have := F.le; omega) f3
  have strictFalse : ∀ g, OfSource o g → base ≤ st.m0.target g → strict (envOf ps smV smF base (2 * c.m0.nE) reg st.m0 st.incoming T o) g = some false := by
    intro g hU hb
    unfold strict
    simp only [st', tg', hbase, hnc]
    have h1 : ¬ ((src st.m0 g < base ∧ smV ≤ src st.m0 g) ∨ (st.m0.target g < base ∧ smV ≤ st.m0.target g)) := by
      rintro (⟨a, b⟩ | ⟨a, b⟩)
      · have hn' : c.m0.nE ≤ edgeOf g := by
          by_contra hc
          have := (F.cut_ends (h := g) (by omega)).1; omega
        obtain ⟨h', f, hp, f1, f2, f3⟩ := (F.side_source hn').1 hU
        obtain ⟨r, hr'⟩ := F.entry hp (.inr hb)
        have := (F.old_ends hp.1 hr').1
        rw [← (F.old_part hp).1 a] at this
        exact F.not_cut f1 f2 hr' (this.1 b)
      · omega
    have e1 : ¬ ((src st.m0 g < base ∧ (envOf ps smV smF base (2 * c.m0.nE) reg st.m0 st.incoming T o).smV ≤ src st.m0 g) ∨
      (st.m0.target g < base ∧ (envOf ps smV smF base (2 * c.m0.nE) reg st.m0 st.incoming T o).smV ≤ st.m0.target g)) := h1
    rw [if_neg e1]
    have h2 : ¬ (base ≤ src st.m0 g ∧ base ≤ st.m0.target g ∧ 2 * c.m0.nE ≤ g) := by
      rintro ⟨a, -, b⟩
      have := sideOld g hU b; omega
    rw [if_neg h2]
  refine ⟨?_, ?_, ?_, ?_, ?_, ?_, ?_, ?_, ?_, ?_, ?_, ?_, ?_, ?_, ?_⟩
  · rw [hnc]; omega
  · rw [nV', hbase, F.G.divided.same.1]; exact F.G.ready.total
  · intro h hU
    obtain ⟨-, -, s3, s4, -⟩ := src_of hr (F.liveH hU)
    obtain ⟨t1, -, t3, -⟩ := src_of hr (F.live_opp (F.liveH hU))
    rw [st', tg', st', tg']
    refine ⟨s3, ?_⟩
    rw [(src_of hr (F.liveH hU)).1]
  · intro h hU; rw [st', tg']; exact (src_of hr (F.liveH hU)).2.1
  · intro h hU; rw [st', tg', nV']; exact F.lt_nV (F.liveH hU)
  · rintro h ⟨p, hp, hh⟩
    obtain ⟨y, f1, f2⟩ := follows_next (F.round hp).cyclic hh
    refine ⟨y, (F.links hp f1).1, ⟨p, hp, f1.mem.2⟩, ?_, (F.links hp f1).2⟩
    rw [st', tg']; exact f2.symm
  · rintro h ⟨p, hp, hh⟩
    obtain ⟨y, f1, f2⟩ := follows_prev (F.round hp).cyclic hh
    exact ⟨y, (F.links hp f1).2, ⟨p, hp, f1.mem.1⟩, (F.links hp f1).1⟩
  · intro h hU hc
    rw [hnc, lt_iff] at hc
    rw [st', tg', hbase]
    have := F.cut_ends hc
    exact ⟨this.1, this.2, F.cut_source (by rw [edgeOf_opposite]; exact hc)⟩
  · intro h hU hc
    rw [st', tg', hbase]
    exact sideOld h hU hc
  · intro h n' hU hc hb hn
    rw [tg', hbase] at hb
    rw [hnc] at hc ⊢
    have hn' : c.m0.nE ≤ edgeOf h := by unfold edgeOf; omega
    obtain ⟨h', f, hp, f1, f2, f3⟩ := (F.side_source hn').1 hU
    obtain ⟨p, hpp, hhp⟩ := hU
    obtain ⟨f', hf', hpf⟩ := F.poly_in hpp
    have hfn' : f' < n := by have := F.le; omega
    have hff : f' = f := by
      have := ((F.uses f' hfn').boundary h hn').1 (List.mem_flatten.2 ⟨p, hpf, hhp⟩)
      obtain ⟨k, hk, hx⟩ := List.mem_flatMap.1 this
      have l := F.G.live ((F.live f').1 hfn') hk
      have := F.G.part_one hp ((F.G.part_iff l.1).2 hx)
      subst this
      exact Option.some.inj (l.2.2.symm.trans f1)
    subst hff
    obtain ⟨y, y1, y2, -⟩ := (F.cross f' hfn').ahead p hpf h hhp h' f3 ((F.G.part_iff hp.1).1 hp) ((F.G.new_part hp).2 hb)
    have := (F.links hpp y1).1
    rw [show (envOf ps smV smF base (2 * c.m0.nE) reg st.m0 st.incoming T o).m0.next h = (link st.m0 (o.polygons.take o.smCount)).next h from rfl, this] at hn
    obtain rfl := Option.some.inj hn
    rw [lt_iff]; exact F.G.cutLt _ _ y2
  · intro h q hU hc hb hn
    rw [st', hbase] at hb
    rw [hnc] at hc ⊢
    have hn' : c.m0.nE ≤ edgeOf h := by unfold edgeOf; omega
    obtain ⟨h', f, hp, f1, f2, f3⟩ := (F.side_source hn').1 hU
    obtain ⟨p, hpp, hhp⟩ := hU
    obtain ⟨f', hf', hpf⟩ := F.poly_in hpp
    have hfn' : f' < n := by have := F.le; omega
    have hff : f' = f := by
      have := ((F.uses f' hfn').boundary h hn').1 (List.mem_flatten.2 ⟨p, hpf, hhp⟩)
      obtain ⟨k, hk, hx⟩ := List.mem_flatMap.1 this
      have l := F.G.live ((F.live f').1 hfn') hk
      have := F.G.part_one hp ((F.G.part_iff l.1).2 hx)
      subst this
      exact Option.some.inj (l.2.2.symm.trans f1)
    subst hff
    obtain ⟨y, y1, y2, -⟩ := (F.cross f' hfn').back p hpf h hhp h' f3 ((F.G.part_iff hp.1).1 hp) ((F.G.new_part hp).1 hb)
    have := (F.links hpp y1).2
    rw [show (envOf ps smV smF base (2 * c.m0.nE) reg st.m0 st.incoming T o).m0.prev h = (link st.m0 (o.polygons.take o.smCount)).prev h from rfl, this] at hn
    obtain rfl := Option.some.inj hn
    rw [lt_iff, edgeOf_opposite]; exact F.G.cutLt _ _ y2
  · intro h hU; rw [hTT]; exact F.used_ne hU
  · intro h hU hi hT
    rw [hTT] at hT
    unfold isInter at hi
    rw [st', tg', hbase] at hi
    by_cases hc : edgeOf h < c.m0.nE
    · exact F.cut_source (by rw [edgeOf_opposite]; exact hc)
    · obtain ⟨h', f, hp, f1, f2, f3⟩ := (F.side_source (by omega)).1 hU
      obtain ⟨k, hk⟩ := F.G.part_every (F.live_opp (F.liveH hU)) (by rw [edgeOf_opposite]; omega)
      have he : edgeOf k = edgeOf h' := by
        refine F.G.part_edge (((reachable_wf F.G.ready.psOk).liveH_iff k).1 hk.1) (((reachable_wf F.G.ready.psOk).liveH_iff h').1 hp.1) (x := edgeOf h) ?_ hp.2.2.1
        have := hk.2.2.1
        rwa [edgeOf_opposite] at this
      obtain ⟨r, hr'⟩ := F.entry hp hi
      have hnot := F.not_cut f1 f2 hr'
      rw [← he] at hr' hnot
      exact F.source_of hk hT hr' hnot
  · intro v hv g hg
    rw [hbase] at hv
    obtain ⟨hl, ht⟩ := ((F.G.divided.incoming v hv).2 g).1 hg
    rw [tg']
    refine ⟨ht, ?_⟩
    unfold strict
    simp only [st', tg', hbase, hnc]
    by_cases h1 : (src st.m0 g < base ∧ smV ≤ src st.m0 g) ∨ (st.m0.target g < base ∧ smV ≤ st.m0.target g)
    · exact ⟨true, by rw [show (envOf ps smV smF base (2 * c.m0.nE) reg st.m0 st.incoming T o).smV = smV from rfl, if_pos h1], by simp⟩
    · rw [show (envOf ps smV smF base (2 * c.m0.nE) reg st.m0 st.incoming T o).smV = smV from rfl, if_neg h1]
      by_cases h2 : base ≤ src st.m0 g ∧ base ≤ st.m0.target g ∧ 2 * c.m0.nE ≤ g
      · rw [if_pos h2]
        have hn' : c.m0.nE ≤ edgeOf g := by unfold edgeOf; omega
        obtain ⟨h', hp⟩ := F.G.part_every hl hn'
        have hm := (F.G.new_part hp).1 h2.1
        obtain ⟨-, hreg⟩ := F.G.pts_base hm
        cases hz : reg[src st.m0 g - base]? with
        | none => rw [hz] at hreg; cases hreg
        | some r =>
          rw [hz] at hreg
          simp only [Option.map_some, Option.some.injEq] at hreg
          have hmem := List.mem_of_getElem? hz
          have Sd := F.X.sided _ hmem
          obtain ⟨f, hf⟩ := Sd.used
          have hsome : ∃ f', (ps.face (halfedgeOf r.1 0)).or (ps.face (halfedgeOf r.1 1)) = some f' ∧ OnEdge ps r.1 f' := by
            cases h0 : ps.face (halfedgeOf r.1 0) with
            | some y => exact ⟨y, by simp, .inl h0⟩
            | none =>
              rcases hf with hf | hf
              · rw [h0] at hf; cases hf
              · exact ⟨f, by simp [hf], .inr hf⟩
          obtain ⟨f', e1, e2⟩ := hsome
          refine ⟨decide (smF ≤ f'), ?_, ?_⟩
          · show (reg[src st.m0 g - base]?).bind _ = _
            rw [hz, Option.bind_some, show (envOf ps smV smF base (2 * c.m0.nE) reg st.m0 st.incoming T o).ps = ps from rfl, e1]
            rfl
          · intro hfalse hT
            rw [decide_eq_false_iff_not] at hfalse
            have hnot : ¬ CutEdge ps smF r.1 := fun h => hfalse ((Sd.one f' e2).2 h)
            have hrr : (edgeOf h', r.2) ∈ reg := by rw [← hreg]; exact hmem
            exact F.source_of hp hT hrr (by rw [← hreg]; exact hnot)
      · rw [if_neg h2]
        refine ⟨false, rfl, fun _ hT => ?_⟩
        by_cases hc : edgeOf g < c.m0.nE
        · exact F.cut_source hc
        · have hs : src st.m0 g < base := by
            by_contra hs
            exact h2 ⟨by omega, by omega, by unfold edgeOf at hc; omega⟩
          have hs' : src st.m0 g < smV := by
            by_contra hs'
            exact h1 (.inl ⟨hs, by omega⟩)
          obtain ⟨h', hp⟩ := F.G.part_every hl (by omega)
          obtain ⟨r, hr'⟩ := F.entry hp (.inr (by rw [ht]; exact hv))
          have := (F.old_ends hp.1 hr').1
          rw [← (F.old_part hp).1 hs] at this
          exact F.source_of hp hT hr' (fun h => by have := this.2 h; omega)
  · intro g hU hb
    rw [tg'] at hb ⊢
    rw [hbase] at hb
    exact ⟨((F.G.divided.incoming _ hb).2 g).2 ⟨F.liveH hU, rfl⟩, strictFalse g hU hb⟩

end
end Mcut.Split
