import Verif.Spec.Hmesh
import Mathlib.Data.List.Nodup
import Mathlib.Data.List.Rotate

/-! Invariant of the halfedge mesh and its preservation by every operation. -/
namespace Mcut.Hmesh
variable {P : Type}

/-- Both halfedges of an edge. -/
def pair (e : Nat) : List Nat := [2 * e, 2 * e + 1]

/-- Successor relation of a cyclic list of halfedges. -/
def Chain (m : Mesh P) (l : List Nat) : Prop :=
  ∀ p ∈ cycPairs l, (m.hd p.1).n = some p.2 ∧ (m.hd p.2).p = some p.1 ∧ (m.hd (opposite p.2)).t = (m.hd p.1).t

/-- A face with all its connectivity. -/
structure FaceOK (m : Mesh P) (f : Nat) : Prop where
  len : 3 ≤ (m.fh f).length
  nd : (m.fh f).Nodup
  mem : ∀ h ∈ m.fh f, LiveH m h ∧ (m.hd h).f = some f
  chain : Chain m (m.fh f)

/-- The invariant; `new` is a face under construction that uses the halfedges `acc` so far. -/
structure Inv (m : Mesh P) (new : Nat) (acc : List Nat) : Prop where
  nH_eq : m.nH = 2 * m.nE
  hRem_eq : m.hRem = m.eRem.flatMap pair
  eRem_nd : m.eRem.Nodup
  eRem_lt : ∀ e ∈ m.eRem, e < m.nE
  vRem_nd : m.vRem.Nodup
  vRem_lt : ∀ v ∈ m.vRem, v < m.nV
  fRem_nd : m.fRem.Nodup
  fRem_lt : ∀ f ∈ m.fRem, f < m.nF
  edge : ∀ e, LiveE m e → m.eh e = some (2 * e)
  half : ∀ h, LiveH m h → (m.hd h).o = some (opposite h) ∧ (m.hd h).e = some (h / 2) ∧ LiveV m (m.hd h).t ∧
    (m.hd (opposite h)).t ≠ (m.hd h).t
  dead : ∀ h ∈ m.hRem, (m.hd h).f = none ∧ (m.hd h).n = none ∧ (m.hd h).p = none
  vh_nd : ∀ v, (m.vh v).Nodup
  vh_mem : ∀ v h, h ∈ m.vh v ↔ LiveH m h ∧ (m.hd h).t = v
  face : ∀ f, LiveF m f → f ≠ new → FaceOK m f
  h_face : ∀ h f, LiveH m h → (m.hd h).f = some f → (f = new ∧ h ∈ acc) ∨ (f ≠ new ∧ LiveF m f ∧ h ∈ m.fh f)
  acc_ok : ∀ h ∈ acc, LiveH m h ∧ (m.hd h).f = some new
  free : ∀ h, LiveH m h → ((m.hd h).f = none ∨ (m.hd h).f = some new) → (m.hd h).n = none ∧ (m.hd h).p = none

/-- The invariant between operations. -/
def WF (m : Mesh P) : Prop := Inv m m.nF []

theorem opposite_opposite (h : Nat) : opposite (opposite h) = h := by unfold opposite; split <;> split <;> omega

theorem opposite_ne (h : Nat) : opposite h ≠ h := by unfold opposite; split <;> omega

theorem opposite_div (h : Nat) : opposite h / 2 = h / 2 := by unfold opposite; split <;> omega

theorem opposite_even (e : Nat) : opposite (2 * e) = 2 * e + 1 := by unfold opposite; split <;> omega

theorem opposite_odd (e : Nat) : opposite (2 * e + 1) = 2 * e := by unfold opposite; split <;> omega

theorem div_eq_cases (h e : Nat) (hh : h / 2 = e) : h = 2 * e ∨ h = 2 * e + 1 := by omega

theorem mem_pairs (l : List Nat) (h : Nat) : h ∈ l.flatMap pair ↔ h / 2 ∈ l := by
  simp only [List.mem_flatMap, pair, List.mem_cons, List.not_mem_nil, or_false]
  constructor
  · rintro ⟨e, he, rfl | rfl⟩
    · rwa [show 2 * e / 2 = e by omega]
    · rwa [show (2 * e + 1) / 2 = e by omega]
  · intro hh; exact ⟨h / 2, hh, by omega⟩

theorem Inv.liveH_iff {m : Mesh P} {new : Nat} {acc : List Nat} (I : Inv m new acc) (h : Nat) : LiveH m h ↔ LiveE m (h / 2) := by
  unfold LiveH LiveE Live
  rw [I.hRem_eq, mem_pairs, I.nH_eq]
  constructor
  · rintro ⟨a, b⟩; exact ⟨by omega, b⟩
  · rintro ⟨a, b⟩; exact ⟨by omega, b⟩

theorem Inv.opp_live {m : Mesh P} {new : Nat} {acc : List Nat} (I : Inv m new acc) {h : Nat} (hh : LiveH m h) : LiveH m (opposite h) := by
  rw [I.liveH_iff] at *; rwa [opposite_div]

theorem Inv.source {m : Mesh P} {new : Nat} {acc : List Nat} (I : Inv m new acc) {h : Nat} (hh : LiveH m h) :
    m.source h = some (m.hd (opposite h)).t := by
  unfold Mesh.source; rw [(I.half h hh).1]; rfl

/-- The invariant of an empty mesh. -/
theorem wf_empty (d : P) : WF (Mesh.empty d) := by
  constructor <;> intros <;> simp_all [Mesh.empty, LiveH, LiveE, LiveF, LiveV, Live]

theorem wf_iff {m : Mesh P} (I : WF m) (k : Nat) (hk : ¬ LiveF m k) : Inv m k [] := by
  have nf : ¬ LiveF m m.nF := fun h => by have := h.1; omega
  have hne : ∀ f, LiveF m f → f ≠ m.nF := fun f hf e => nf (e ▸ hf)
  have hnk : ∀ f, LiveF m f → f ≠ k := fun f hf e => hk (e ▸ hf)
  have nofnew : ∀ h f, LiveH m h → (m.hd h).f = some f → LiveF m f ∧ h ∈ m.fh f := by
    intro h f hh hf
    rcases I.h_face h f hh hf with ⟨_, h2⟩ | ⟨_, h2, h3⟩
    · simp at h2
    · exact ⟨h2, h3⟩
  refine { I with face := fun f hf _ => I.face f hf (hne f hf), h_face := ?_, acc_ok := by simp, free := ?_ }
  · intro h f hh hf
    have := nofnew h f hh hf
    exact Or.inr ⟨hnk f this.1, this.1, this.2⟩
  · intro h hh hf
    rcases hf with hf | hf
    · exact I.free h hh (Or.inl hf)
    · exact absurd (nofnew h k hh hf).1 hk

theorem wf_of {m : Mesh P} {k : Nat} (I : Inv m k []) (hk : ¬ LiveF m k) : WF m := by
  have hnk : ∀ f, LiveF m f → f ≠ k := fun f hf e => hk (e ▸ hf)
  have nofnew : ∀ h f, LiveH m h → (m.hd h).f = some f → LiveF m f ∧ h ∈ m.fh f := by
    intro h f hh hf
    rcases I.h_face h f hh hf with ⟨_, h2⟩ | ⟨_, h2, h3⟩
    · simp at h2
    · exact ⟨h2, h3⟩
  refine { I with face := fun f hf _ => I.face f hf (hnk f hf), h_face := ?_, acc_ok := by simp, free := ?_ }
  · intro h f hh hf
    have := nofnew h f hh hf
    exact Or.inr ⟨fun e => by have := this.1.1; omega, this.1, this.2⟩
  · intro h hh hf
    rcases hf with hf | hf
    · exact I.free h hh (Or.inl hf)
    · exact absurd (nofnew h _ hh hf).1.1 (by omega)

/-! ### looking up a halfedge -/

theorem halfedge_none {m : Mesh P} {new : Nat} {acc : List Nat} (I : Inv m new acc) (s t : Nat) (hst : s ≠ t) :
    m.halfedge s t true = none ↔ ∀ h, LiveH m h → m.source h = some s → m.target h ≠ t := by
  unfold Mesh.halfedge
  simp only
  constructor
  · intro hnone h hh hs ht
    have hfind : (m.vh s).find? (fun i => ((m.vh t).map edgeOf).contains (edgeOf i)) = none := by
      cases hf : (m.vh s).find? (fun i => ((m.vh t).map edgeOf).contains (edgeOf i)) with
      | none => rfl
      | some i =>
        rw [hf] at hnone
        simp only [Bool.true_or, if_true] at hnone
        split at hnone <;> simp at hnone
    rw [List.find?_eq_none] at hfind
    rw [I.source hh] at hs
    have hos : opposite h ∈ m.vh s := by
      rw [I.vh_mem]; exact ⟨I.opp_live hh, by simpa using hs⟩
    have htt : h ∈ m.vh t := by rw [I.vh_mem]; exact ⟨hh, ht⟩
    apply hfind _ hos
    simp only [List.contains_eq_mem, decide_eq_true_eq, List.mem_map]
    exact ⟨h, htt, by simp [edgeOf, opposite_div]⟩
  · intro hall
    have : (m.vh s).find? (fun i => ((m.vh t).map edgeOf).contains (edgeOf i)) = none := by
      rw [List.find?_eq_none]
      intro i hi hc
      simp only [List.contains_eq_mem, decide_eq_true_eq, List.mem_map] at hc
      obtain ⟨j, hj, hji⟩ := hc
      rw [I.vh_mem] at hi hj
      have hne : j ≠ i := by rintro rfl; exact hst (hi.2.symm.trans hj.2)
      have hjo : j = opposite i := by
        simp only [edgeOf] at hji; unfold opposite; split <;> omega
      subst hjo
      refine hall (opposite i) hj.1 ?_ hj.2
      rw [I.source hj.1, opposite_opposite, hi.2]
    rw [this]

theorem halfedge_some {m : Mesh P} {new : Nat} {acc : List Nat} (I : Inv m new acc) (s t : Nat) (hst : s ≠ t) (h : Nat)
    (hs : m.halfedge s t true = some h) : LiveH m h ∧ (m.hd (opposite h)).t = s ∧ (m.hd h).t = t := by
  unfold Mesh.halfedge at hs
  simp only at hs
  cases hf : (m.vh s).find? (fun i => ((m.vh t).map edgeOf).contains (edgeOf i)) with
  | none => rw [hf] at hs; simp at hs
  | some i =>
    rw [hf] at hs
    have hi := List.mem_of_find?_eq_some hf
    have hc := List.find?_some hf
    simp only [List.contains_eq_mem, decide_eq_true_eq, List.mem_map] at hc
    obtain ⟨j, hj, hji⟩ := hc
    rw [I.vh_mem] at hi hj
    have hne : j ≠ i := by rintro rfl; exact hst (hi.2.symm.trans hj.2)
    have hjo : j = opposite i := by
      simp only [edgeOf] at hji; unfold opposite; split <;> omega
    subst hjo
    have : ¬ (m.source i = some s ∧ m.target i = t) := by
      rintro ⟨-, h2⟩
      exact hst (hi.2.symm.trans h2)
    simp only [this, if_false, Bool.true_or, if_true, Option.some.injEq] at hs
    subst hs
    exact ⟨hj.1, by rw [opposite_opposite]; exact hi.2, hj.2⟩

/-- The non-strict lookup is the strict one filtered by the presence of a face. -/
theorem halfedge_nonstrict (m : Mesh P) (s t : Nat) :
    m.halfedge s t false = (m.halfedge s t true).bind (fun h => if (m.face h).isSome then some h else none) := by
  unfold Mesh.halfedge
  simp only
  cases (m.vh s).find? (fun i => ((m.vh t).map edgeOf).contains (edgeOf i)) with
  | none => rfl
  | some i => by_cases hc : m.source i = some s ∧ m.target i = t <;> simp [hc]

/-! ### adding an edge -/

/-- The edge descriptor that the next `add_edge` uses. -/
def newEdge (m : Mesh P) : Nat := m.eRem.headD m.nE

/-- The effect of `add_edge` relative to the old mesh. -/
structure EdgeAdded (m m' : Mesh P) (v0 v1 e : Nat) : Prop where
  nV : m'.nV = m.nV
  vRem : m'.vRem = m.vRem
  nF : m'.nF = m.nF
  fRem : m'.fRem = m.fRem
  fh : m'.fh = m.fh
  pos : m'.pos = m.pos
  nH : m'.nH = 2 * m'.nE
  hRem : m'.hRem = m'.eRem.flatMap pair
  nd : m'.eRem.Nodup
  lt : ∀ x ∈ m'.eRem, x < m'.nE
  live : ∀ x, LiveE m' x ↔ LiveE m x ∨ x = e
  fresh : ¬ LiveE m e
  eh : ∀ x, LiveE m x → m'.eh x = m.eh x
  eh_new : m'.eh e = some (2 * e)
  hd : ∀ h, h / 2 ≠ e → m'.hd h = m.hd h
  hd0 : m'.hd (2 * e) = { t := v1, o := some (2 * e + 1), e := some e }
  hd1 : m'.hd (2 * e + 1) = { t := v0, o := some (2 * e), e := some e }
  vh : ∀ v, m'.vh v = m.vh v ++ (if v = v0 then [2 * e + 1] else []) ++ (if v = v1 then [2 * e] else [])
  dead : ∀ h ∈ m'.hRem, h ∈ m.hRem

theorem addEdge_spec {m : Mesh P} {new : Nat} {acc : List Nat} (I : Inv m new acc) (v0 v1 : Nat) (hne : v0 ≠ v1) :
    (m.addEdge v0 v1).2 = 2 * newEdge m ∧ EdgeAdded m (m.addEdge v0 v1).1 v0 v1 (newEdge m) := by
  have hfresh : ∀ h, h / 2 = newEdge m → ¬ LiveH m h := by
    intro h hh hl
    rw [I.liveH_iff, hh] at hl
    unfold newEdge at hl
    cases he : m.eRem with
    | nil => rw [he] at hl; have := hl.1; simp at this
    | cons e r => rw [he] at hl; exact hl.2 (by rw [he]; simp)
  have hn0 : ∀ v, ¬ (2 * newEdge m ∈ m.vh v) := fun v hv => hfresh _ (by omega) ((I.vh_mem v _).1 hv).1
  have hn1 : ∀ v, ¬ (2 * newEdge m + 1 ∈ m.vh v) := fun v hv => hfresh _ (by omega) ((I.vh_mem v _).1 hv).1
  cases he : m.eRem with
  | nil =>
    have hnew : newEdge m = m.nE := by simp [newEdge, he]
    rw [hnew] at hn0 hn1 ⊢
    have hr : m.hRem = [] := by rw [I.hRem_eq, he]; rfl
    have hH := I.nH_eq
    constructor
    · simp only [Mesh.addEdge, Mesh.allocHalfedge, Mesh.allocEdge, hr, he, Mesh.numHalfedges, Mesh.numEdges, List.length_nil, Nat.sub_zero]
      exact hH
    · unfold Mesh.addEdge Mesh.allocHalfedge Mesh.allocEdge
      simp only [hr, he, Mesh.numHalfedges, Mesh.numEdges, List.length_nil, Nat.sub_zero, hH]
      have c1 : (m.vh v0).contains (2 * m.nE + 1) = false := by simpa using hn1 v0
      have c2 : (upd m.vh v0 (m.vh v0 ++ [2 * m.nE + 1]) v1).contains (2 * m.nE) = false := by
        rw [upd_other _ _ _ _ (Ne.symm hne)]; simpa using hn0 v1
      simp only [c1, c2, Bool.false_eq_true, if_false]
      refine { nV := rfl, vRem := rfl, nF := rfl, fRem := rfl, fh := rfl, pos := rfl, nH := ?_, hRem := ?_, nd := ?_, lt := ?_, live := ?_, fresh := ?_, eh := ?_, eh_new := ?_, hd := ?_, hd0 := ?_, hd1 := ?_, vh := ?_, dead := ?_ }
      · show 2 * m.nE + 1 + 1 = 2 * (m.nE + 1); omega
      · rfl
      · exact List.nodup_nil
      · intro x hx; simp at hx
      · intro x; simp only [LiveE, Live, he, List.not_mem_nil, not_false_eq_true, and_true]; omega
      · simp [LiveE, Live]
      · intro x hx
        have := hx.1
        simp only [upd]
        rw [if_neg (by omega), if_neg (by omega)]
      · simp [upd]
      · intro h hh
        simp only [upd]
        rw [if_neg (by omega), if_neg (by omega), if_neg (by omega), if_neg (by omega)]
      · simp [upd]
      · simp [upd]
      · intro v
        simp only [upd]
        by_cases h0 : v = v0 <;> by_cases h1 : v = v1
        · exact absurd (h0.symm.trans h1) hne
        · simp [h0, hne]
        · simp [h1, Ne.symm hne]
        · simp [h0, h1]
      · intro h hh; simp at hh
  | cons e rest =>
    have hnew : newEdge m = e := by simp [newEdge, he]
    rw [hnew] at hn0 hn1 hfresh ⊢
    have hr : m.hRem = 2 * e :: (2 * e + 1) :: rest.flatMap pair := by rw [I.hRem_eq, he]; rfl
    have hH := I.nH_eq
    have hnd := I.eRem_nd
    rw [he, List.nodup_cons] at hnd
    have d0 := I.dead (2 * e) (by rw [hr]; simp)
    have d1 := I.dead (2 * e + 1) (by rw [hr]; simp)
    have helt : e < m.nE := I.eRem_lt e (by rw [he]; simp)
    constructor
    · simp only [Mesh.addEdge, Mesh.allocHalfedge, Mesh.allocEdge, hr, he]
    · unfold Mesh.addEdge Mesh.allocHalfedge Mesh.allocEdge
      simp only [hr, he]
      have c1 : (m.vh v0).contains (2 * e + 1) = false := by simpa using hn1 v0
      have c2 : (upd m.vh v0 (m.vh v0 ++ [2 * e + 1]) v1).contains (2 * e) = false := by
        rw [upd_other _ _ _ _ (Ne.symm hne)]; simpa using hn0 v1
      simp only [c1, c2, Bool.false_eq_true, if_false]
      constructor <;> try (simp; done)
      · simpa using hH
      · exact hnd.2
      · intro x hx; exact I.eRem_lt x (by rw [he]; simp [hx])
      · intro x
        simp only [LiveE, Live, he, List.mem_cons, not_or]
        constructor
        · rintro ⟨a, b⟩
          by_cases hx : x = e
          · exact Or.inr hx
          · exact Or.inl ⟨a, hx, b⟩
        · rintro (⟨a, _, b⟩ | rfl)
          · exact ⟨a, b⟩
          · exact ⟨helt, hnd.1⟩
      · rintro ⟨_, b⟩; exact b (by rw [he]; simp)
      · intro x hx
        have : x ≠ e := by rintro rfl; exact hx.2 (by rw [he]; simp)
        simp [upd, this]
      · intro h hh
        simp only [upd]
        rw [if_neg (by omega), if_neg (by omega)]
      · simp only [upd]
        simp [d0]
      · simp only [upd]
        simp [d1]
      · intro v
        simp only [upd]
        by_cases h0 : v = v0 <;> by_cases h1 : v = v1
        · exact absurd (h0.symm.trans h1) hne
        · simp [h0, h1, hne]
        · simp [h1, Ne.symm hne]
        · simp [h0, h1]
      · intro h hh
        rw [hr]; simp only [List.mem_cons]; exact Or.inr (Or.inr hh)

theorem EdgeAdded.liveV {m m' : Mesh P} {v0 v1 e : Nat} (E : EdgeAdded m m' v0 v1 e) (v : Nat) : LiveV m' v ↔ LiveV m v := by
  unfold LiveV; rw [E.nV, E.vRem]

theorem EdgeAdded.liveF {m m' : Mesh P} {v0 v1 e : Nat} (E : EdgeAdded m m' v0 v1 e) (f : Nat) : LiveF m' f ↔ LiveF m f := by
  unfold LiveF; rw [E.nF, E.fRem]

theorem EdgeAdded.liveH {m m' : Mesh P} {v0 v1 e new : Nat} {acc : List Nat} (E : EdgeAdded m m' v0 v1 e) (I : Inv m new acc) (h : Nat) :
    LiveH m' h ↔ LiveH m h ∨ h / 2 = e := by
  have : LiveH m' h ↔ LiveE m' (h / 2) := by
    unfold LiveH LiveE Live
    rw [E.hRem, mem_pairs, E.nH]
    constructor
    · rintro ⟨a, b⟩; exact ⟨by omega, b⟩
    · rintro ⟨a, b⟩; exact ⟨by omega, b⟩
  rw [this, E.live, ← I.liveH_iff]

theorem EdgeAdded.old {m m' : Mesh P} {v0 v1 e new : Nat} {acc : List Nat} (E : EdgeAdded m m' v0 v1 e) (I : Inv m new acc) {h : Nat}
    (hh : LiveH m h) : m'.hd h = m.hd h :=
  E.hd h (fun e' => E.fresh (e' ▸ (I.liveH_iff h).1 hh))

theorem Chain.congr {m m' : Mesh P} {l : List Nat} (h : ∀ x ∈ l, m'.hd x = m.hd x ∧ (m'.hd (opposite x)).t = (m.hd (opposite x)).t)
    (hc : Chain m l) : Chain m' l := by
  intro p hp
  obtain ⟨a, b⟩ := List.of_mem_zip hp
  rw [List.mem_rotate] at b
  have := hc p hp
  rw [(h p.1 a).1, (h p.2 b).1, (h p.2 b).2]; exact this

theorem EdgeAdded.inv {m m' : Mesh P} {v0 v1 e new : Nat} {acc : List Nat} (E : EdgeAdded m m' v0 v1 e) (I : Inv m new acc)
    (h0 : LiveV m v0) (h1 : LiveV m v1) (hne : v0 ≠ v1) : Inv m' new acc := by
  have hdn : ∀ h, h / 2 = e → (m'.hd h).f = none ∧ (m'.hd h).n = none ∧ (m'.hd h).p = none := by
    intro h hh
    rcases div_eq_cases h e hh with rfl | rfl
    · rw [E.hd0]; simp
    · rw [E.hd1]; simp
  have hlH : ∀ h, LiveH m h → LiveH m' h := fun h hh => (E.liveH I h).2 (Or.inl hh)
  have hopp : ∀ h, LiveH m h → m'.hd (opposite h) = m.hd (opposite h) := fun h hh => E.old I (I.opp_live hh)
  refine
    { nH_eq := E.nH, hRem_eq := E.hRem, eRem_nd := E.nd, eRem_lt := E.lt, vRem_nd := by rw [E.vRem]; exact I.vRem_nd,
      vRem_lt := by rw [E.vRem, E.nV]; exact I.vRem_lt, fRem_nd := by rw [E.fRem]; exact I.fRem_nd,
      fRem_lt := by rw [E.fRem, E.nF]; exact I.fRem_lt, edge := ?_, half := ?_, dead := ?_, vh_nd := ?_, vh_mem := ?_, face := ?_, h_face := ?_,
      acc_ok := ?_, free := ?_ }
  · intro x hx
    rw [E.live] at hx
    rcases hx with hx | rfl
    · rw [E.eh x hx]; exact I.edge x hx
    · exact E.eh_new
  · intro h hh
    rw [E.liveH I] at hh
    rcases hh with hh | hh
    · rw [E.old I hh, hopp h hh, E.liveV]; exact I.half h hh
    · rcases div_eq_cases h e hh with rfl | rfl
      · rw [opposite_even, E.hd0, E.hd1, E.liveV]
        exact ⟨rfl, by simp, h1, hne⟩
      · rw [opposite_odd, E.hd0, E.hd1, E.liveV]
        refine ⟨rfl, by simp only [Option.some.injEq]; omega, h0, Ne.symm hne⟩
  · intro h hh
    have hx : h / 2 ≠ e := by
      intro hx
      have hl := (E.liveH I h).2 (Or.inr hx)
      exact hl.2 hh
    rw [E.hd h hx]; exact I.dead h (E.dead h hh)
  · intro v
    rw [E.vh]
    have a0 : 2 * e ∉ m.vh v := fun hv => by
      have := ((I.vh_mem v _).1 hv).1
      rw [I.liveH_iff] at this
      exact E.fresh (by rwa [show 2 * e / 2 = e by omega] at this)
    have a1 : 2 * e + 1 ∉ m.vh v := fun hv => by
      have := ((I.vh_mem v _).1 hv).1
      rw [I.liveH_iff] at this
      exact E.fresh (by rwa [show (2 * e + 1) / 2 = e by omega] at this)
    have nd := I.vh_nd v
    by_cases c0 : v = v0 <;> by_cases c1 : v = v1
    · exact absurd (c0.symm.trans c1) hne
    · simp only [c0, if_true, c1] at *
      rw [if_neg hne, List.append_nil, List.nodup_append]
      exact ⟨nd, by simp, by intro x hx y hy; simp at hy; subst hy; rintro rfl; exact a1 hx⟩
    · simp only [c1, if_true] at *
      rw [if_neg (Ne.symm hne), List.append_nil, List.nodup_append]
      exact ⟨nd, by simp, by intro x hx y hy; simp at hy; subst hy; rintro rfl; exact a0 hx⟩
    · simp [c0, c1, nd]
  · intro v h
    rw [E.vh, E.liveH I, List.mem_append, List.mem_append, I.vh_mem]
    constructor
    · rintro ((⟨hh, ht⟩ | hh) | hh)
      · exact ⟨Or.inl hh, by rw [E.old I hh]; exact ht⟩
      · by_cases c0 : v = v0
        · simp [c0] at hh; subst hh
          exact ⟨Or.inr (by omega), by rw [E.hd1]; exact c0.symm⟩
        · simp [c0] at hh
      · by_cases c1 : v = v1
        · simp [c1] at hh; subst hh
          exact ⟨Or.inr (by omega), by rw [E.hd0]; exact c1.symm⟩
        · simp [c1] at hh
    · rintro ⟨hh | hh, ht⟩
      · rw [E.old I hh] at ht; exact Or.inl (Or.inl ⟨hh, ht⟩)
      · rcases div_eq_cases h e hh with rfl | rfl
        · rw [E.hd0] at ht; right; simp at ht; simp [ht]
        · rw [E.hd1] at ht; left; right; simp at ht; simp [ht]
  · intro f hf hfn
    rw [E.liveF] at hf
    have F := I.face f hf hfn
    constructor
    · rw [E.fh]; exact F.len
    · rw [E.fh]; exact F.nd
    · intro h hh
      rw [E.fh] at hh
      have := F.mem h hh
      exact ⟨hlH h this.1, by rw [E.old I this.1]; exact this.2⟩
    · rw [E.fh]
      exact F.chain.congr (fun x hx => ⟨E.old I (F.mem x hx).1, by rw [hopp x (F.mem x hx).1]⟩)
  · intro h f hh hf
    rw [E.liveH I] at hh
    rcases hh with hh | hh
    · rw [E.old I hh] at hf
      rw [E.liveF, E.fh]
      exact I.h_face h f hh hf
    · rw [(hdn h hh).1] at hf; simp at hf
  · intro h hh
    have := I.acc_ok h hh
    exact ⟨hlH h this.1, by rw [E.old I this.1]; exact this.2⟩
  · intro h hh hf
    rw [E.liveH I] at hh
    rcases hh with hh | hh
    · rw [E.old I hh] at hf ⊢; exact I.free h hh hf
    · exact (hdn h hh).2

/-! ### inserting a face -/

/-- What a (partial) face insertion leaves unchanged. -/
structure Frame (m m' : Mesh P) (new : Nat) (acc : List Nat) : Prop where
  nV : m'.nV = m.nV
  vRem : m'.vRem = m.vRem
  nF : m'.nF = m.nF
  fRem : m'.fRem = m.fRem
  fh : m'.fh = m.fh
  pos : m'.pos = m.pos
  old : ∀ h, LiveH m h → LiveH m' h ∧ (m'.hd h).t = (m.hd h).t ∧ (m'.hd h).n = (m.hd h).n ∧ (m'.hd h).p = (m.hd h).p ∧
    (m'.hd h).o = (m.hd h).o ∧ (m'.hd h).e = (m.hd h).e ∧
    ((m'.hd h).f = (m.hd h).f ∨ ((m.hd h).f = none ∧ (m'.hd h).f = some new ∧ h ∈ acc))

theorem Frame.refl (m : Mesh P) (new : Nat) (acc : List Nat) : Frame m m new acc :=
  ⟨rfl, rfl, rfl, rfl, rfl, rfl, fun _ hh => ⟨hh, rfl, rfl, rfl, rfl, rfl, Or.inl rfl⟩⟩

/-- Marking a free halfedge as belonging to the face under construction. -/
def Mesh.mark (m : Mesh P) (h new : Nat) : Mesh P := { m with hd := upd m.hd h { m.hd h with f := some new } }

theorem mark_hd (m : Mesh P) (h new x : Nat) :
    ((m.mark h new).hd x).t = (m.hd x).t ∧ ((m.mark h new).hd x).o = (m.hd x).o ∧ ((m.mark h new).hd x).n = (m.hd x).n ∧
    ((m.mark h new).hd x).p = (m.hd x).p ∧ ((m.mark h new).hd x).e = (m.hd x).e := by
  unfold Mesh.mark upd
  by_cases hx : x = h
  · subst hx; simp
  · simp [hx]

theorem mark_f (m : Mesh P) (h new x : Nat) : ((m.mark h new).hd x).f = if x = h then some new else (m.hd x).f := by
  unfold Mesh.mark upd
  by_cases hx : x = h
  · subst hx; simp
  · simp [hx]

theorem mark_inv {m : Mesh P} {new : Nat} {acc : List Nat} (I : Inv m new acc) {h : Nat} (hh : LiveH m h) (hf : (m.hd h).f = none) :
    Inv (m.mark h new) new (acc ++ [h]) := by
  have hH : ∀ x, LiveH (m.mark h new) x ↔ LiveH m x := fun x => Iff.rfl
  have D := mark_hd m h new
  have F := mark_f m h new
  refine { nH_eq := I.nH_eq, hRem_eq := I.hRem_eq, eRem_nd := I.eRem_nd, eRem_lt := I.eRem_lt, vRem_nd := I.vRem_nd,
           vRem_lt := I.vRem_lt, fRem_nd := I.fRem_nd, fRem_lt := I.fRem_lt, edge := I.edge, half := ?_, dead := ?_, vh_nd := I.vh_nd,
           vh_mem := ?_, face := ?_, h_face := ?_, acc_ok := ?_, free := ?_ }
  · intro x hx
    rw [(D x).1, (D x).2.1, (D x).2.2.2.2, (D _).1]
    exact I.half x hx
  · intro x hx
    have hne : x ≠ h := fun e => (e ▸ hh).2 hx
    rw [F, if_neg hne, (D x).2.2.1, (D x).2.2.2.1]
    exact I.dead x hx
  · intro v x
    rw [(D x).1]; exact I.vh_mem v x
  · intro f hfl hfn
    have G := I.face f hfl hfn
    refine ⟨G.len, G.nd, ?_, ?_⟩
    · intro x hx
      have hne : x ≠ h := by rintro rfl; rw [(G.mem x hx).2] at hf; simp at hf
      refine ⟨(G.mem x hx).1, ?_⟩
      rw [F, if_neg hne]; exact (G.mem x hx).2
    · intro p hp
      have := G.chain p hp
      rw [(D _).2.2.1, (D _).2.2.2.1, (D _).1, (D _).1]; exact this
  · intro x f hx hxf
    rw [F] at hxf
    by_cases hne : x = h
    · left; rw [if_pos hne] at hxf
      simp only [Option.some.injEq] at hxf
      exact ⟨hxf.symm, by simp [hne]⟩
    · rw [if_neg hne] at hxf
      rcases I.h_face x f hx hxf with ⟨a, b⟩ | c
      · exact Or.inl ⟨a, by simp [b]⟩
      · exact Or.inr c
  · intro x hx
    rw [List.mem_append, List.mem_singleton] at hx
    rw [F]
    rcases hx with hx | rfl
    · refine ⟨(I.acc_ok x hx).1, ?_⟩
      split
      · rfl
      · exact (I.acc_ok x hx).2
    · exact ⟨hh, by simp⟩
  · intro x hx hxf
    rw [(D x).2.2.1, (D x).2.2.2.1]
    rw [F] at hxf
    by_cases hne : x = h
    · subst hne; exact I.free x hx (Or.inl hf)
    · rw [if_neg hne] at hxf; exact I.free x hx hxf

theorem getOrAdd_spec {m : Mesh P} {new : Nat} {acc : List Nat} (I : Inv m new acc) (v0 v1 : Nat) (h0 : LiveV m v0) (h1 : LiveV m v1)
    (hne : v0 ≠ v1) :
    Inv (m.getOrAdd v0 v1).1 new acc ∧ LiveH (m.getOrAdd v0 v1).1 (m.getOrAdd v0 v1).2 ∧
    ((m.getOrAdd v0 v1).1.hd (m.getOrAdd v0 v1).2).t = v1 ∧ ((m.getOrAdd v0 v1).1.hd (opposite (m.getOrAdd v0 v1).2)).t = v0 ∧
    Frame m (m.getOrAdd v0 v1).1 new acc ∧ (∀ h, LiveH m h → (m.getOrAdd v0 v1).1.hd h = m.hd h) ∧
    ((LiveH m (m.getOrAdd v0 v1).2 ∧ (m.hd (m.getOrAdd v0 v1).2).t = v1 ∧ (m.hd (opposite (m.getOrAdd v0 v1).2)).t = v0 ∧
        (m.getOrAdd v0 v1).1 = m) ∨
      ((∀ h, LiveH m h → (m.hd (opposite h)).t = v0 → (m.hd h).t ≠ v1) ∧
        ((m.getOrAdd v0 v1).1.hd (m.getOrAdd v0 v1).2).f = none)) := by
  unfold Mesh.getOrAdd
  cases hl : m.halfedge v0 v1 true with
  | some h =>
    have := halfedge_some I v0 v1 hne h hl
    exact ⟨I, this.1, this.2.2, this.2.1, Frame.refl _ _ _, fun _ _ => rfl, Or.inl ⟨this.1, this.2.2, this.2.1, rfl⟩⟩
  | none =>
    have hno := (halfedge_none I v0 v1 hne).1 hl
    obtain ⟨e1, E⟩ := addEdge_spec I v0 v1 hne
    have I' := E.inv I h0 h1 hne
    refine ⟨I', ?_, ?_, ?_, ?_, fun h hh => E.old I hh, Or.inr ⟨?_, ?_⟩⟩
    · show LiveH (m.addEdge v0 v1).1 (m.addEdge v0 v1).2
      rw [e1, E.liveH I]; right; omega
    · show ((m.addEdge v0 v1).1.hd (m.addEdge v0 v1).2).t = v1
      rw [e1, E.hd0]
    · show ((m.addEdge v0 v1).1.hd (opposite (m.addEdge v0 v1).2)).t = v0
      rw [e1, opposite_even, E.hd1]
    · refine ⟨E.nV, E.vRem, E.nF, E.fRem, E.fh, E.pos, fun h hh => ⟨(E.liveH I h).2 (Or.inl hh), ?_⟩⟩
      show ((m.addEdge v0 v1).1.hd h).t = _ ∧ _
      have ho : ((m.addEdge v0 v1).1.hd h) = m.hd h := E.old I hh
      rw [ho]; exact ⟨rfl, rfl, rfl, rfl, rfl, Or.inl rfl⟩
    · intro h hh hs
      exact hno h hh (by rw [I.source hh, hs])
    · show ((m.addEdge v0 v1).1.hd (m.addEdge v0 v1).2).f = none
      rw [e1, E.hd0]

theorem Frame.trans {m m1 m2 : Mesh P} {new : Nat} {acc acc1 : List Nat} (F : Frame m m1 new acc) (G : Frame m1 m2 new acc1)
    (hs : ∀ x ∈ acc, x ∈ acc1) : Frame m m2 new acc1 := by
  refine ⟨G.nV.trans F.nV, G.vRem.trans F.vRem, G.nF.trans F.nF, G.fRem.trans F.fRem, G.fh.trans F.fh, G.pos.trans F.pos, ?_⟩
  intro h hh
  obtain ⟨a1, a2, a3, a4, a5, a6, a7⟩ := F.old h hh
  obtain ⟨b1, b2, b3, b4, b5, b6, b7⟩ := G.old h a1
  refine ⟨b1, b2.trans a2, b3.trans a3, b4.trans a4, b5.trans a5, b6.trans a6, ?_⟩
  rcases a7 with a7 | ⟨a7, a8, a9⟩
  · rw [a7] at b7; exact b7
  · rcases b7 with b7 | ⟨b7, _, _⟩
    · right; exact ⟨a7, b7.trans a8, hs h a9⟩
    · rw [a8] at b7; simp at b7

theorem Frame.mono {m m1 : Mesh P} {new : Nat} {acc acc1 : List Nat} (F : Frame m m1 new acc) (hs : ∀ x ∈ acc, x ∈ acc1) :
    Frame m m1 new acc1 := F.trans (Frame.refl _ _ _) hs

theorem mark_frame (m : Mesh P) (new : Nat) (acc : List Nat) (h : Nat) (hf : (m.hd h).f = none) : Frame m (m.mark h new) new (acc ++ [h]) := by
  refine ⟨rfl, rfl, rfl, rfl, rfl, rfl, fun x hx => ⟨hx, ?_⟩⟩
  obtain ⟨a, b, c, d, e⟩ := mark_hd m h new x
  refine ⟨a, c, d, b, e, ?_⟩
  rw [mark_f]
  by_cases hne : x = h
  · right; subst hne; exact ⟨hf, by simp, by simp⟩
  · left; rw [if_neg hne]

/-- Conclusion about the first loop of `add_face`. -/
structure LoopOK (m : Mesh P) (new : Nat) (acc : List Nat) (L : List (Nat × Nat)) (r : Mesh P × List Nat × Bool) : Prop where
  inv : Inv r.1 new r.2.1
  nd : r.2.1.Nodup
  frame : Frame m r.1 new r.2.1
  ext : ∃ ext, r.2.1 = acc ++ ext ∧ (r.2.2 = true → ext.map (fun h => ((r.1.hd (opposite h)).t, (r.1.hd h).t)) = L)
  hd_t : ∀ h, LiveH m h → LiveH r.1 h ∧ (r.1.hd h).t = (m.hd h).t

theorem addFaceLoop_spec (new : Nat) (L : List (Nat × Nat)) : ∀ (m : Mesh P) (acc : List Nat), Inv m new acc → acc.Nodup →
    (∀ p ∈ L, LiveV m p.1 ∧ LiveV m p.2 ∧ p.1 ≠ p.2) → LoopOK m new acc L (Mesh.addFaceLoop new m acc L) := by
  induction L with
  | nil =>
    intro m acc I hnd _
    exact ⟨I, hnd, Frame.refl _ _ _, ⟨[], by simp [Mesh.addFaceLoop]⟩, fun h hh => ⟨hh, rfl⟩⟩
  | cons q L ih =>
    obtain ⟨v0, v1⟩ := q
    intro m acc I hnd hL
    have hq := hL (v0, v1) (by simp)
    obtain ⟨I1, l1, t1, s1, F1, o1, -⟩ := getOrAdd_spec I v0 v1 hq.1 hq.2.1 hq.2.2
    unfold Mesh.addFaceLoop
    simp only
    by_cases hc : ((m.getOrAdd v0 v1).1.face (m.getOrAdd v0 v1).2).isSome = true
    · rw [if_pos hc]
      exact ⟨I1, hnd, F1, ⟨[], by simp, by simp⟩, fun h hh => ⟨(F1.old h hh).1, (F1.old h hh).2.1⟩⟩
    · rw [if_neg hc]
      have hfn : ((m.getOrAdd v0 v1).1.hd (m.getOrAdd v0 v1).2).f = none := by
        simpa [Mesh.face] using hc
      have I2 := mark_inv I1 l1 hfn
      have hnot : (m.getOrAdd v0 v1).2 ∉ acc := by
        intro hm
        have := (I1.acc_ok _ hm).2
        rw [hfn] at this; simp at this
      have hnd2 : (acc ++ [(m.getOrAdd v0 v1).2]).Nodup := by
        rw [List.nodup_append]
        refine ⟨hnd, by simp, ?_⟩
        intro a ha b hb
        rw [List.mem_singleton] at hb
        rintro rfl; exact hnot (hb ▸ ha)
      have F2 := F1.trans (mark_frame (m.getOrAdd v0 v1).1 new acc (m.getOrAdd v0 v1).2 hfn) (by intro x hx; simp [hx])
      have R := ih ((m.getOrAdd v0 v1).1.mark (m.getOrAdd v0 v1).2 new) (acc ++ [(m.getOrAdd v0 v1).2]) I2 hnd2 (by
        intro p hp
        have := hL p (by simp [hp])
        unfold LiveV at *
        rw [F2.nV, F2.vRem]; exact this)
      change LoopOK m new acc _ (Mesh.addFaceLoop new ((m.getOrAdd v0 v1).1.mark (m.getOrAdd v0 v1).2 new) _ L)
      obtain ⟨ext, he1, he2⟩ := R.ext
      refine ⟨R.inv, R.nd, F2.trans R.frame ?_, ⟨(m.getOrAdd v0 v1).2 :: ext, ?_, ?_⟩, ?_⟩
      · intro x hx; rw [he1]; exact List.mem_append_left _ hx
      · rw [he1]; simp
      · intro hok
        rw [List.map_cons, he2 hok]
        have a := R.hd_t _ (show LiveH ((m.getOrAdd v0 v1).1.mark (m.getOrAdd v0 v1).2 new) _ from l1)
        have b := R.hd_t _ (show LiveH ((m.getOrAdd v0 v1).1.mark (m.getOrAdd v0 v1).2 new) _ from I1.opp_live l1)
        rw [a.2, b.2, (mark_hd _ _ _ _).1, (mark_hd _ _ _ _).1, t1, s1]
      · intro h hh
        have a := F2.old h hh
        have b := R.hd_t h a.1
        exact ⟨b.1, b.2.trans a.2.1⟩

/-! the second loop of `add_face` -/

theorem setNext_hd (m : Mesh P) (h k x : Nat) : (m.setNext h k).hd x =
    { m.hd x with n := if x = h then some k else (m.hd x).n, p := if x = k then some h else (m.hd x).p } := by
  simp only [Mesh.setNext, upd]
  by_cases h1 : x = k
  · subst h1
    by_cases h2 : x = h
    · subst h2; simp
    · simp [h2]
  · by_cases h2 : x = h
    · subst h2; simp [h1]
    · simp [h1, h2]

theorem setNext_frame (m : Mesh P) (h k x : Nat) :
    ((m.setNext h k).hd x).t = (m.hd x).t ∧ ((m.setNext h k).hd x).o = (m.hd x).o ∧ ((m.setNext h k).hd x).f = (m.hd x).f ∧
    ((m.setNext h k).hd x).e = (m.hd x).e := by
  rw [setNext_hd]; simp

theorem setNext_n (m : Mesh P) (h k x : Nat) : ((m.setNext h k).hd x).n = if x = h then some k else (m.hd x).n := by
  rw [setNext_hd]

theorem setNext_p (m : Mesh P) (h k x : Nat) : ((m.setNext h k).hd x).p = if x = k then some h else (m.hd x).p := by
  rw [setNext_hd]

/-- All the successor assignments of a face. -/
def Mesh.link (m : Mesh P) (L : List (Nat × Nat)) : Mesh P := L.foldl (fun m p => m.setNext p.1 p.2) m

theorem link_same (L : List (Nat × Nat)) : ∀ (m : Mesh P), (m.link L).nV = m.nV ∧ (m.link L).nE = m.nE ∧ (m.link L).nH = m.nH ∧
    (m.link L).nF = m.nF ∧ (m.link L).pos = m.pos ∧ (m.link L).vh = m.vh ∧ (m.link L).eh = m.eh ∧ (m.link L).fh = m.fh ∧
    (m.link L).vRem = m.vRem ∧ (m.link L).eRem = m.eRem ∧ (m.link L).hRem = m.hRem ∧ (m.link L).fRem = m.fRem := by
  induction L with
  | nil => intro m; simp [Mesh.link]
  | cons q L ih => intro m; exact ih (m.setNext q.1 q.2)

theorem link_frame (L : List (Nat × Nat)) : ∀ (m : Mesh P) (x : Nat), ((m.link L).hd x).t = (m.hd x).t ∧ ((m.link L).hd x).o = (m.hd x).o ∧
    ((m.link L).hd x).f = (m.hd x).f ∧ ((m.link L).hd x).e = (m.hd x).e := by
  induction L with
  | nil => intro m x; simp [Mesh.link]
  | cons q L ih =>
    intro m x
    have a := ih (m.setNext q.1 q.2) x
    have b := setNext_frame m q.1 q.2 x
    exact ⟨a.1.trans b.1, a.2.1.trans b.2.1, a.2.2.1.trans b.2.2.1, a.2.2.2.trans b.2.2.2⟩

theorem link_other (L : List (Nat × Nat)) : ∀ (m : Mesh P) (x : Nat), (x ∉ L.map Prod.fst → ((m.link L).hd x).n = (m.hd x).n) ∧
    (x ∉ L.map Prod.snd → ((m.link L).hd x).p = (m.hd x).p) := by
  induction L with
  | nil => intro m x; simp [Mesh.link]
  | cons q L ih =>
    intro m x
    have a := ih (m.setNext q.1 q.2) x
    constructor
    · intro hx
      rw [List.map_cons, List.mem_cons, not_or] at hx
      have := a.1 hx.2
      rw [setNext_n, if_neg hx.1] at this
      exact this
    · intro hx
      rw [List.map_cons, List.mem_cons, not_or] at hx
      have := a.2 hx.2
      rw [setNext_p, if_neg hx.1] at this
      exact this

theorem link_mem (L : List (Nat × Nat)) : ∀ (m : Mesh P), (L.map Prod.fst).Nodup → (L.map Prod.snd).Nodup → ∀ p ∈ L,
    ((m.link L).hd p.1).n = some p.2 ∧ ((m.link L).hd p.2).p = some p.1 := by
  induction L with
  | nil => intro m _ _ p hp; simp at hp
  | cons q L ih =>
    intro m h1 h2 p hp
    rw [List.map_cons, List.nodup_cons] at h1 h2
    rcases List.mem_cons.1 hp with rfl | hp
    · have a := (link_other L (m.setNext p.1 p.2) p.1).1 h1.1
      have b := (link_other L (m.setNext p.1 p.2) p.2).2 h2.1
      rw [setNext_n, if_pos rfl] at a
      rw [setNext_p, if_pos rfl] at b
      exact ⟨a, b⟩
    · exact ih (m.setNext q.1 q.2) h1.2 h2.2 p hp

theorem cycPairs_fst {α : Type} (l : List α) : (cycPairs l).map Prod.fst = l := by
  unfold cycPairs; rw [List.map_fst_zip]; simp

theorem cycPairs_snd {α : Type} (l : List α) : (cycPairs l).map Prod.snd = l.rotate 1 := by
  unfold cycPairs; rw [List.map_snd_zip]; simp

theorem zip_of_map_eq {α β γ : Type} (f : α → γ) (g : β → γ) : ∀ (l : List α) (l' : List β), l.map f = l'.map g → ∀ p ∈ l.zip l', f p.1 = g p.2 := by
  intro l
  induction l with
  | nil => intro l' _ p hp; simp at hp
  | cons a l ih =>
    intro l' he p hp
    cases l' with
    | nil => simp at hp
    | cons b l' =>
      rw [List.map_cons, List.map_cons, List.cons.injEq] at he
      rw [List.zip_cons_cons, List.mem_cons] at hp
      rcases hp with rfl | hp
      · exact he.1
      · exact ih l' he.2 p hp

/-- Linking the halfedges of the new face and storing its list completes the insertion. -/
theorem finish_inv {m : Mesh P} {new : Nat} {acc : List Nat} (I : Inv m new acc) (hnd : acc.Nodup) (hlen : 3 ≤ acc.length)
    (hcyc : acc.map (fun h => (m.hd h).t) = (acc.rotate 1).map (fun h => (m.hd (opposite h)).t))
    (m' : Mesh P) (hnew : LiveF m' new) (hlf : ∀ f, f ≠ new → (LiveF m' f ↔ LiveF m f)) (hfh : m'.fh = upd m.fh new acc)
    (hsame : m'.nV = m.nV ∧ m'.nE = m.nE ∧ m'.nH = m.nH ∧ m'.vh = m.vh ∧ m'.eh = m.eh ∧ m'.vRem = m.vRem ∧ m'.eRem = m.eRem ∧
      m'.hRem = m.hRem ∧ m'.hd = m.hd) (hfnd : m'.fRem.Nodup) (hflt : ∀ f ∈ m'.fRem, f < m'.nF) : WF (m'.link (cycPairs acc)) := by
  obtain ⟨s1, s2, s3, s4, s5, s6, s7, s8, s9⟩ := hsame
  obtain ⟨k1, k2, k3, k4, k5, k6, k7, k8, k9, k10, k11, k12⟩ := link_same (cycPairs acc) m'
  have K := link_frame (cycPairs acc) m'
  have hV : ∀ v, LiveV (m'.link (cycPairs acc)) v ↔ LiveV m v := by intro v; unfold LiveV; rw [k1, k9, s1, s6]
  have hE : ∀ v, LiveE (m'.link (cycPairs acc)) v ↔ LiveE m v := by intro v; unfold LiveE; rw [k2, k10, s2, s7]
  have hH : ∀ v, LiveH (m'.link (cycPairs acc)) v ↔ LiveH m v := by intro v; unfold LiveH; rw [k3, k11, s3, s8]
  have hF : ∀ v, LiveF (m'.link (cycPairs acc)) v ↔ LiveF m' v := by intro v; unfold LiveF; rw [k4, k12]
  have hn1 : ∀ x, x ∉ acc → ((m'.link (cycPairs acc)).hd x).n = (m.hd x).n := by
    intro x hx
    rw [← s9]; exact (link_other _ m' x).1 (by rw [cycPairs_fst]; exact hx)
  have hp1 : ∀ x, x ∉ acc → ((m'.link (cycPairs acc)).hd x).p = (m.hd x).p := by
    intro x hx
    rw [← s9]; exact (link_other _ m' x).2 (by rw [cycPairs_snd, List.mem_rotate]; exact hx)
  have notacc : ∀ x, LiveH m x → (m.hd x).f ≠ some new → x ∉ acc := fun x _ hf hx => hf (I.acc_ok x hx).2
  have nfl : ¬ LiveF (m'.link (cycPairs acc)) (m'.link (cycPairs acc)).nF := fun h => by have := h.1; omega
  refine { nH_eq := by rw [k2, k3, s2, s3]; exact I.nH_eq, hRem_eq := by rw [k10, k11, s7, s8]; exact I.hRem_eq,
           eRem_nd := by rw [k10, s7]; exact I.eRem_nd, eRem_lt := by rw [k10, k2, s7, s2]; exact I.eRem_lt,
           vRem_nd := by rw [k9, s6]; exact I.vRem_nd, vRem_lt := by rw [k9, k1, s6, s1]; exact I.vRem_lt,
           fRem_nd := by rw [k12]; exact hfnd, fRem_lt := by rw [k12, k4]; exact hflt,
           edge := by intro e he; rw [k7, s5]; exact I.edge e ((hE e).1 he),
           half := ?_, dead := ?_, vh_nd := by rw [k6, s4]; exact I.vh_nd, vh_mem := ?_, face := ?_, h_face := ?_, acc_ok := by simp,
           free := ?_ }
  · intro x hx
    rw [hH] at hx
    rw [(K x).1, (K x).2.1, (K x).2.2.2, (K _).1, hV, s9]
    exact I.half x hx
  · intro x hx
    rw [k11, s8] at hx
    have hxn : x ∉ acc := fun h => (I.acc_ok x h).1.2 hx
    rw [(K x).2.2.1, hn1 x hxn, hp1 x hxn, s9]
    exact I.dead x hx
  · intro v x
    rw [k6, s4, hH, (K x).1, s9]; exact I.vh_mem v x
  · intro f hf _
    rw [hF] at hf
    by_cases hfn : f = new
    · subst hfn
      have hlist : (m'.link (cycPairs acc)).fh f = acc := by rw [k8, hfh, upd_same]
      refine ⟨by rw [hlist]; exact hlen, by rw [hlist]; exact hnd, ?_, ?_⟩
      · intro x hx
        rw [hlist] at hx
        rw [hH, (K x).2.2.1, s9]; exact I.acc_ok x hx
      · rw [hlist]
        intro p hp
        have a := link_mem (cycPairs acc) m' (by rw [cycPairs_fst]; exact hnd) (by rw [cycPairs_snd, List.nodup_rotate]; exact hnd) p hp
        refine ⟨a.1, a.2, ?_⟩
        rw [(K _).1, (K _).1, s9]
        exact (zip_of_map_eq (fun h => (m.hd h).t) (fun h => (m.hd (opposite h)).t) _ _ hcyc p hp).symm
    · have G := I.face f ((hlf f hfn).1 hf) hfn
      have hlist : (m'.link (cycPairs acc)).fh f = m.fh f := by rw [k8, hfh, upd_other _ _ _ _ hfn]
      have hna : ∀ x ∈ m.fh f, x ∉ acc := fun x hx => notacc x (G.mem x hx).1 (by rw [(G.mem x hx).2]; simpa using hfn)
      refine ⟨by rw [hlist]; exact G.len, by rw [hlist]; exact G.nd, ?_, ?_⟩
      · intro x hx
        rw [hlist] at hx
        rw [hH, (K x).2.2.1, s9]; exact G.mem x hx
      · rw [hlist]
        intro p hp
        obtain ⟨a, b⟩ := List.of_mem_zip hp
        rw [List.mem_rotate] at b
        rw [hn1 _ (hna _ a), hp1 _ (hna _ b), (K _).1, (K _).1, s9]
        exact G.chain p hp
  · intro x f hx hxf
    rw [hH] at hx
    rw [(K x).2.2.1, s9] at hxf
    right
    rw [k8, hfh, hF]
    rcases I.h_face x f hx hxf with ⟨a, b⟩ | ⟨a, b, c⟩
    · subst a
      refine ⟨fun e => nfl ((hF _).2 (e ▸ hnew)), hnew, by rw [upd_same]; exact b⟩
    · have := (hlf f a).2 b
      exact ⟨fun e => nfl ((hF _).2 (e ▸ this)), this, by rw [upd_other _ _ _ _ a]; exact c⟩
  · intro x hx hxf
    rw [hH] at hx
    rw [(K x).2.2.1, s9] at hxf
    have hfn : (m.hd x).f = none := by
      rcases hxf with h | h
      · exact h
      · exfalso
        rcases I.h_face x _ hx h with ⟨a, _⟩ | ⟨a, b, _⟩
        · exact nfl ((hF _).2 (by rw [a]; exact hnew))
        · exact nfl ((hF _).2 ((hlf _ a).2 b))
    have hna : x ∉ acc := notacc x hx (by rw [hfn]; simp)
    rw [hn1 x hna, hp1 x hna]
    exact I.free x hx (Or.inl hfn)

theorem cycPairs_mem {α : Type} (l : List α) (p : α × α) (hp : p ∈ cycPairs l) :
    ∃ i, i < l.length ∧ l[i]? = some p.1 ∧ l[(i + 1) % l.length]? = some p.2 := by
  unfold cycPairs at hp
  obtain ⟨i, hi, he⟩ := List.getElem_of_mem hp
  rw [List.length_zip, List.length_rotate, Nat.min_self] at hi
  refine ⟨i, hi, ?_, ?_⟩
  · rw [← he, List.getElem_zip]; simp [hi]
  · rw [← he, List.getElem_zip, List.getElem_rotate]
    exact List.getElem?_eq_getElem _

theorem GoodPolygon.pairs {m : Mesh P} {vi : List Nat} (G : GoodPolygon m vi) : ∀ p ∈ cycPairs vi, LiveV m p.1 ∧ LiveV m p.2 ∧ p.1 ≠ p.2 := by
  intro p hp
  obtain ⟨i, hi, h1, h2⟩ := cycPairs_mem vi p hp
  refine ⟨G.2.1 _ (List.mem_of_getElem? h1), G.2.1 _ (List.mem_of_getElem? h2), ?_⟩
  intro he
  apply G.2.2 i hi
  rw [h1, h2, he]

/-- The face descriptor that the next insertion uses. -/
def newFace (m : Mesh P) : Nat := m.fRem.headD m.nF

theorem WF.newFace_dead {m : Mesh P} (_ : WF m) : ¬ LiveF m (newFace m) := by
  unfold newFace
  cases hf : m.fRem with
  | nil => intro h; have := h.1; simp at this
  | cons a l => intro h; exact h.2 (by rw [hf]; simp)

/-- The mesh on which the first loop of `add_face` runs. -/
def loopMesh (m : Mesh P) : Mesh P := { m with fRem := m.fRem.tail }

theorem WF.loop {m : Mesh P} (W : WF m) : Inv (loopMesh m) (newFace m) [] := by
  have I := wf_iff W (newFace m) W.newFace_dead
  have hl : ∀ f, f ≠ newFace m → (LiveF (loopMesh m) f ↔ LiveF m f) := by
    intro f hf
    unfold newFace at hf
    unfold LiveF Live loopMesh
    cases h : m.fRem with
    | nil => simp
    | cons a l => rw [h] at hf; simp at hf; simp [hf]
  refine { I with fRem_nd := ?_, fRem_lt := ?_, face := ?_, h_face := ?_, acc_ok := by simp }
  · exact I.fRem_nd.sublist (List.tail_sublist _)
  · intro f hf; exact I.fRem_lt f (List.mem_of_mem_tail hf)
  · intro f hf hfn
    have := I.face f ((hl f hfn).1 hf) hfn
    exact ⟨this.len, this.nd, this.mem, this.chain⟩
  · intro h f hh hf
    rcases I.h_face h f hh hf with ⟨_, h2⟩ | ⟨h1, h2, h3⟩
    · simp at h2
    · exact Or.inr ⟨h1, (hl f h1).2 h2, h3⟩

/-- The result of the first loop of `add_face`. -/
def loopResult (m : Mesh P) (vi : List Nat) : Mesh P × List Nat × Bool := Mesh.addFaceLoop (newFace m) (loopMesh m) [] (cycPairs vi)

theorem addFace_nil {m : Mesh P} (vi : List Nat) (h : m.fRem = []) :
    m.addFace vi = if (loopResult m vi).2.2 = true then
      (Mesh.link { (loopResult m vi).1 with
        nF := (loopResult m vi).1.nF + 1, fh := upd (loopResult m vi).1.fh (loopResult m vi).1.nF (loopResult m vi).2.1 }
        (cycPairs (loopResult m vi).2.1), some (newFace m)) else ((loopResult m vi).1, none) := by
  have h1 : loopMesh m = m := by unfold loopMesh; rw [h]; cases m; simp_all
  have h2 : newFace m = m.numFaces := by simp [newFace, Mesh.numFaces, h]
  unfold loopResult
  rw [h1, h2]
  unfold Mesh.addFace
  rw [h]
  rfl

theorem addFace_cons {m : Mesh P} (vi : List Nat) (a : Nat) (l : List Nat) (h : m.fRem = a :: l) :
    m.addFace vi = if (loopResult m vi).2.2 = true then
      (Mesh.link { (loopResult m vi).1 with fh := upd (loopResult m vi).1.fh (newFace m) (loopResult m vi).2.1 }
        (cycPairs (loopResult m vi).2.1), some (newFace m))
      else ({ (loopResult m vi).1 with fh := upd (loopResult m vi).1.fh (newFace m) (loopResult m vi).2.1 }, none) := by
  have h1 : loopMesh m = { m with fRem := l } := by unfold loopMesh; rw [h]; rfl
  have h2 : newFace m = a := by simp [newFace, h]
  unfold loopResult
  rw [h1, h2]
  unfold Mesh.addFace
  rw [h]
  rfl

theorem map_eq_of {α : Type} (acc vi : List Nat) (s t : Nat → α) (L : List (α × α)) (h : acc.map (fun x => (s x, t x)) = L)
    (l : List α) (hl : L = cycPairs l) : acc.map s = l ∧ acc.map t = l.rotate 1 := by
  subst hl
  constructor
  · have := congrArg (List.map Prod.fst) h
    rw [cycPairs_fst, List.map_map] at this
    exact this
  · have := congrArg (List.map Prod.snd) h
    rw [cycPairs_snd, List.map_map] at this
    exact this

/-- Everything about a face insertion. -/
structure FaceAdded (m m' : Mesh P) (vi : List Nat) (idx : Nat) : Prop where
  wf : WF m'
  live : ∀ f, LiveF m' f ↔ LiveF m f ∨ f = idx
  fresh : ¬ LiveF m idx
  idx_eq : idx = newFace m
  fRem : m'.fRem = m.fRem.tail
  nF : m'.nF = if m.fRem = [] then m.nF + 1 else m.nF
  nV : m'.nV = m.nV
  vRem : m'.vRem = m.vRem
  pos : m'.pos = m.pos
  list : (m'.fh idx).map (fun h => (m'.hd h).t) = vi.rotate 1
  srcs : (m'.fh idx).map (fun h => (m'.hd (opposite h)).t) = vi
  old_list : ∀ f, LiveF m f → m'.fh f = m.fh f
  old_h : ∀ h, LiveH m h → LiveH m' h ∧ (m'.hd h).t = (m.hd h).t ∧
    ((m'.hd h).f = (m.hd h).f ∨ ((m.hd h).f = none ∧ (m'.hd h).f = some idx))

theorem WF.loopOK {m : Mesh P} (W : WF m) {vi : List Nat} (G : GoodPolygon m vi) :
    LoopOK (loopMesh m) (newFace m) [] (cycPairs vi) (loopResult m vi) :=
  addFaceLoop_spec (newFace m) (cycPairs vi) (loopMesh m) [] W.loop List.nodup_nil G.pairs

theorem addFace_result {m : Mesh P} (vi : List Nat) : (m.addFace vi).2 = if (loopResult m vi).2.2 = true then some (newFace m) else none := by
  cases h : m.fRem with
  | nil => rw [addFace_nil vi h]; split <;> rfl
  | cons a l => rw [addFace_cons vi a l h]; split <;> rfl

theorem addFace_spec {m : Mesh P} (W : WF m) {vi : List Nat} (G : GoodPolygon m vi) (idx : Nat) (hr : (m.addFace vi).2 = some idx) :
    FaceAdded m (m.addFace vi).1 vi idx := by
  have R := W.loopOK G
  rw [addFace_result] at hr
  have hok : (loopResult m vi).2.2 = true := by by_contra hc; rw [if_neg hc] at hr; simp at hr
  rw [if_pos hok] at hr
  simp only [Option.some.injEq] at hr
  obtain ⟨ext, he1, he2⟩ := R.ext
  rw [List.nil_append] at he1
  have hst := map_eq_of ext vi (fun h => ((loopResult m vi).1.hd (opposite h)).t) (fun h => ((loopResult m vi).1.hd h).t) _ (he2 hok) vi rfl
  rw [← he1] at hst
  have hlen : 3 ≤ (loopResult m vi).2.1.length := by
    have := congrArg List.length hst.1
    rw [List.length_map] at this; rw [this]; exact G.1
  have hcyc : (loopResult m vi).2.1.map (fun h => ((loopResult m vi).1.hd h).t) =
      ((loopResult m vi).2.1.rotate 1).map (fun h => ((loopResult m vi).1.hd (opposite h)).t) := by
    rw [List.map_rotate, hst.1, hst.2]
  have F := R.frame
  have dead := W.newFace_dead
  have key : ∀ m' : Mesh P, (m.addFace vi).1 = m'.link (cycPairs (loopResult m vi).2.1) → (m'.fRem = m.fRem.tail) →
      (m'.nF = if m.fRem = [] then m.nF + 1 else m.nF) → m'.fh = upd m.fh (newFace m) (loopResult m vi).2.1 →
      (m'.nV = (loopResult m vi).1.nV ∧ m'.nE = (loopResult m vi).1.nE ∧ m'.nH = (loopResult m vi).1.nH ∧ m'.vh = (loopResult m vi).1.vh ∧
      m'.eh = (loopResult m vi).1.eh ∧ m'.vRem = (loopResult m vi).1.vRem ∧ m'.eRem = (loopResult m vi).1.eRem ∧
      m'.hRem = (loopResult m vi).1.hRem ∧ m'.hd = (loopResult m vi).1.hd) → m'.pos = m.pos → FaceAdded m (m.addFace vi).1 vi idx := by
    intro m' heq hfr hnf hfh hsame hpos
    have hlive : ∀ f, LiveF m' f ↔ LiveF m f ∨ f = newFace m := by
      intro f
      unfold LiveF Live newFace
      rw [hfr, hnf]
      have hlt := W.fRem_lt
      have hnd := W.fRem_nd
      cases h : m.fRem with
      | nil => simp; omega
      | cons a l =>
        rw [h] at hlt hnd
        have ha := hlt a (by simp)
        rw [List.nodup_cons] at hnd
        simp only [List.tail_cons, List.headD_cons, List.mem_cons, not_or, reduceCtorEq, if_false]
        constructor
        · rintro ⟨x, y⟩
          by_cases hf : f = a
          · exact Or.inr hf
          · exact Or.inl ⟨x, hf, y⟩
        · rintro (⟨x, y, z⟩ | rfl)
          · exact ⟨x, z⟩
          · exact ⟨ha, hnd.1⟩
    have hlf : ∀ f, f ≠ newFace m → (LiveF m' f ↔ LiveF (loopResult m vi).1 f) := by
      intro f hf
      rw [hlive]
      have : LiveF (loopResult m vi).1 f ↔ LiveF m f := by
        unfold LiveF Live
        rw [F.nF, F.fRem]
        unfold newFace at hf
        unfold loopMesh
        cases h : m.fRem with
        | nil => simp
        | cons a l => rw [h] at hf; simp at hf; simp [hf]
      rw [this]; exact or_iff_left hf
    have hfnd : m'.fRem.Nodup := by rw [hfr]; exact W.fRem_nd.sublist (List.tail_sublist _)
    have hflt : ∀ f ∈ m'.fRem, f < m'.nF := by
      intro f hf
      rw [hfr] at hf
      have := W.fRem_lt f (List.mem_of_mem_tail hf)
      rw [hnf]; split <;> omega
    have hfh' : m'.fh = upd (loopResult m vi).1.fh (newFace m) (loopResult m vi).2.1 := by rw [hfh, F.fh]; rfl
    have Wn := finish_inv R.inv R.nd hlen hcyc m' ((hlive _).2 (Or.inr rfl)) hlf hfh' hsame hfnd hflt
    obtain ⟨k1, k2, k3, k4, k5, k6, k7, k8, k9, k10, k11, k12⟩ := link_same (cycPairs (loopResult m vi).2.1) m'
    have K := link_frame (cycPairs (loopResult m vi).2.1) m'
    rw [heq]
    obtain ⟨s1, s2, s3, s4, s5, s6, s7, s8, s9⟩ := hsame
    refine ⟨Wn, ?_, hr ▸ dead, hr.symm, k12.trans hfr, k4.trans hnf, k1.trans (s1.trans F.nV), k9.trans (s6.trans F.vRem), k5.trans hpos,
      ?_, ?_, ?_, ?_⟩
    · intro f
      rw [← hr, ← hlive]; unfold LiveF; rw [k4, k12]
    · rw [k8, hfh, ← hr, upd_same, ← hst.2]
      apply List.map_congr_left
      intro x _; rw [(K x).1, s9]
    · rw [k8, hfh, ← hr, upd_same]
      refine Eq.trans ?_ hst.1
      apply List.map_congr_left
      intro x _; rw [(K _).1, s9]
    · intro f hf
      rw [k8, hfh, upd_other]
      rintro rfl; exact dead hf
    · intro h hh
      have := F.old h hh
      refine ⟨?_, ?_, ?_⟩
      · have t := this.1
        unfold LiveH at t ⊢; rwa [k3, k11, s3, s8]
      · rw [(K h).1, s9]; exact this.2.1
      · rw [(K h).2.2.1, s9]
        rcases this.2.2.2.2.2.2 with a | ⟨a, b, _⟩
        · exact Or.inl a
        · exact Or.inr ⟨a, by rw [b, hr]⟩
  cases h : m.fRem with
  | nil =>
    refine key { (loopResult m vi).1 with
        nF := (loopResult m vi).1.nF + 1, fh := upd (loopResult m vi).1.fh (loopResult m vi).1.nF (loopResult m vi).2.1 } ?_ ?_ ?_ ?_
        ⟨rfl, rfl, rfl, rfl, rfl, rfl, rfl, rfl, rfl⟩ F.pos
    · rw [addFace_nil vi h, if_pos hok]
    · exact F.fRem
    · show (loopResult m vi).1.nF + 1 = _
      rw [h, F.nF]; rfl
    · show upd (loopResult m vi).1.fh (loopResult m vi).1.nF (loopResult m vi).2.1 = _
      rw [F.fh, F.nF]; simp [newFace, h, loopMesh]
  | cons a l =>
    refine key { (loopResult m vi).1 with fh := upd (loopResult m vi).1.fh (newFace m) (loopResult m vi).2.1 } ?_ ?_ ?_ ?_
        ⟨rfl, rfl, rfl, rfl, rfl, rfl, rfl, rfl, rfl⟩ F.pos
    · rw [addFace_cons vi a l h, if_pos hok]
    · exact F.fRem
    · show (loopResult m vi).1.nF = _
      rw [h, F.nF]; rfl
    · show upd (loopResult m vi).1.fh (newFace m) (loopResult m vi).2.1 = _
      rw [F.fh]; rfl

end Mcut.Hmesh
