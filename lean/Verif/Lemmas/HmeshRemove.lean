import Verif.Lemmas.Hmesh

/-! Removal operations preserve the invariant of the halfedge mesh; every reachable mesh satisfies it and hence is consistent. -/
namespace Mcut.Hmesh
variable {P : Type}

theorem detach_same (m : Mesh P) (h : Nat) : (m.detach h).nV = m.nV ∧ (m.detach h).nE = m.nE ∧ (m.detach h).nH = m.nH ∧
    (m.detach h).nF = m.nF ∧ (m.detach h).pos = m.pos ∧ (m.detach h).vh = m.vh ∧ (m.detach h).eh = m.eh ∧ (m.detach h).fh = m.fh ∧
    (m.detach h).vRem = m.vRem ∧ (m.detach h).eRem = m.eRem ∧ (m.detach h).hRem = m.hRem ∧ (m.detach h).fRem = m.fRem := by
  simp [Mesh.detach]

/-- Cutting the link to the successor. -/
def cutN (hd : Nat → HData) (h : Nat) : Nat → HData :=
  match (hd h).n with
    | none => hd
    | some hn =>
      let hd := upd hd hn { hd hn with p := none }
      upd hd h { hd h with n := none }

/-- Cutting the link to the predecessor. -/
def cutP (hd : Nat → HData) (h : Nat) : Nat → HData :=
  match (hd h).p with
    | none => hd
    | some hp =>
      let hd := upd hd hp { hd hp with n := none }
      upd hd h { hd h with p := none }

theorem cutN_spec (hd : Nat → HData) (h x : Nat) : ((cutN hd h) x).t = (hd x).t ∧ ((cutN hd h) x).o = (hd x).o ∧
    ((cutN hd h) x).e = (hd x).e ∧ ((cutN hd h) x).f = (hd x).f ∧ ((cutN hd h) x).n = (if x = h then none else (hd x).n) ∧
    ((cutN hd h) x).p = (if (hd h).n = some x then none else (hd x).p) := by
  unfold cutN
  cases hn : (hd h).n with
  | none =>
    by_cases hx : x = h
    · subst hx; simp [hn]
    · simp [hx]
  | some y =>
    simp only [upd]
    by_cases hx : x = h
    · subst hx
      by_cases hy : x = y
      · subst hy; simp
      · simp [hy, Ne.symm hy]
    · by_cases hy : x = y
      · subst hy; simp [hx]
      · simp [hx, hy, Ne.symm hy]

theorem cutP_spec (hd : Nat → HData) (h x : Nat) : ((cutP hd h) x).t = (hd x).t ∧ ((cutP hd h) x).o = (hd x).o ∧
    ((cutP hd h) x).e = (hd x).e ∧ ((cutP hd h) x).f = (hd x).f ∧ ((cutP hd h) x).p = (if x = h then none else (hd x).p) ∧
    ((cutP hd h) x).n = (if (hd h).p = some x then none else (hd x).n) := by
  unfold cutP
  cases hn : (hd h).p with
  | none =>
    by_cases hx : x = h
    · subst hx; simp [hn]
    · simp [hx]
  | some y =>
    simp only [upd]
    by_cases hx : x = h
    · subst hx
      by_cases hy : x = y
      · subst hy; simp
      · simp [hy, Ne.symm hy]
    · by_cases hy : x = y
      · subst hy; simp [hx]
      · simp [hx, hy, Ne.symm hy]

theorem detach_eq (m : Mesh P) (h : Nat) : (m.detach h).hd = cutP (cutN (upd m.hd h { m.hd h with f := none }) h) h := rfl

theorem detach_self (m : Mesh P) (h : Nat) : ((m.detach h).hd h).f = none ∧ ((m.detach h).hd h).n = none ∧ ((m.detach h).hd h).p = none := by
  rw [detach_eq]
  have a := cutP_spec (cutN (upd m.hd h { m.hd h with f := none }) h) h h
  have b := cutN_spec (upd m.hd h { m.hd h with f := none }) h h
  rw [a.2.2.2.1, a.2.2.2.2.1, a.2.2.2.2.2, b.2.2.2.1, b.2.2.2.2.1]
  simp [upd]

theorem detach_other (m : Mesh P) (h x : Nat) :
    ((m.detach h).hd x).t = (m.hd x).t ∧ ((m.detach h).hd x).o = (m.hd x).o ∧ ((m.detach h).hd x).e = (m.hd x).e ∧
    (x ≠ h → ((m.detach h).hd x).f = (m.hd x).f ∧
      (((m.detach h).hd x).n = (m.hd x).n ∨ (((m.detach h).hd x).n = none ∧ (m.hd h).p = some x)) ∧
      (((m.detach h).hd x).p = (m.hd x).p ∨ (((m.detach h).hd x).p = none ∧ (m.hd h).n = some x))) := by
  rw [detach_eq]
  have a := cutP_spec (cutN (upd m.hd h { m.hd h with f := none }) h) h x
  have b := cutN_spec (upd m.hd h { m.hd h with f := none }) h x
  have b' := cutN_spec (upd m.hd h { m.hd h with f := none }) h h
  rw [a.1, a.2.1, a.2.2.1, b.1, b.2.1, b.2.2.1]
  by_cases hx : x = h
  · subst hx; simp [upd]
  · rw [a.2.2.2.1, a.2.2.2.2.1, a.2.2.2.2.2, b.2.2.2.1, b.2.2.2.2.1, b.2.2.2.2.2, b'.2.2.2.2.2]
    simp only [upd, hx, if_false, if_true, ne_eq, not_false_eq_true, forall_const, true_and]
    clear a b b'
    constructor
    · by_cases c : (m.hd h).n = some h <;> by_cases d : (m.hd h).p = some x <;> simp [c, d]
    · by_cases c : (m.hd h).n = some x <;> simp [c]

/-- Links stay inside a set of halfedges. -/
def Closed (m : Mesh P) (S : List Nat) : Prop := ∀ h ∈ S, (∀ y, (m.hd h).n = some y → y ∈ S) ∧ (∀ y, (m.hd h).p = some y → y ∈ S)

/-- Detaching a list of halfedges whose links stay inside `S` affects only `S`. -/
theorem detach_fold (S : List Nat) (l : List Nat) : ∀ (m : Mesh P), (∀ h ∈ l, h ∈ S) → Closed m S →
    (∀ x, x ∉ S → (l.foldl Mesh.detach m).hd x = m.hd x) ∧
    (∀ x, ((l.foldl Mesh.detach m).hd x).t = (m.hd x).t ∧ ((l.foldl Mesh.detach m).hd x).o = (m.hd x).o ∧
      ((l.foldl Mesh.detach m).hd x).e = (m.hd x).e ∧
      (((l.foldl Mesh.detach m).hd x).f = (m.hd x).f ∨ ((l.foldl Mesh.detach m).hd x).f = none) ∧
      (((l.foldl Mesh.detach m).hd x).n = (m.hd x).n ∨ ((l.foldl Mesh.detach m).hd x).n = none) ∧
      (((l.foldl Mesh.detach m).hd x).p = (m.hd x).p ∨ ((l.foldl Mesh.detach m).hd x).p = none)) ∧
    (∀ x ∈ l, ((l.foldl Mesh.detach m).hd x).f = none ∧ ((l.foldl Mesh.detach m).hd x).n = none ∧ ((l.foldl Mesh.detach m).hd x).p = none) := by
  induction l with
  | nil => intro m _ _; simp
  | cons h l ih =>
    intro m hl hc
    have hh := hl h (by simp)
    have step : ∀ x, ((m.detach h).hd x).t = (m.hd x).t ∧ ((m.detach h).hd x).o = (m.hd x).o ∧ ((m.detach h).hd x).e = (m.hd x).e ∧
      (((m.detach h).hd x).f = (m.hd x).f ∨ ((m.detach h).hd x).f = none) ∧
      (((m.detach h).hd x).n = (m.hd x).n ∨ ((m.detach h).hd x).n = none) ∧
      (((m.detach h).hd x).p = (m.hd x).p ∨ ((m.detach h).hd x).p = none) := by
      intro x
      have a := detach_other m h x
      refine ⟨a.1, a.2.1, a.2.2.1, ?_⟩
      by_cases hx : x = h
      · subst hx
        have := detach_self m x
        exact ⟨Or.inr this.1, Or.inr this.2.1, Or.inr this.2.2⟩
      · have b := a.2.2.2 hx
        exact ⟨Or.inl b.1, b.2.1.imp id (·.1), b.2.2.imp id (·.1)⟩
    have outside : ∀ x, x ∉ S → (m.detach h).hd x = m.hd x := by
      intro x hx
      have hxh : x ≠ h := by rintro rfl; exact hx hh
      have a := detach_other m h x
      have b := a.2.2.2 hxh
      have n1 : ((m.detach h).hd x).n = (m.hd x).n := by
        rcases b.2.1 with h1 | ⟨_, h1⟩
        · exact h1
        · exact absurd ((hc h hh).2 x h1) hx
      have p1 : ((m.detach h).hd x).p = (m.hd x).p := by
        rcases b.2.2 with h1 | ⟨_, h1⟩
        · exact h1
        · exact absurd ((hc h hh).1 x h1) hx
      cases h1 : (m.detach h).hd x; cases h2 : m.hd x
      simp_all
    have hc' : Closed (m.detach h) S := by
      intro x hx
      have s := step x
      constructor
      · intro y hy
        rcases s.2.2.2.2.1 with h1 | h1
        · rw [h1] at hy; exact (hc x hx).1 y hy
        · rw [h1] at hy; simp at hy
      · intro y hy
        rcases s.2.2.2.2.2 with h1 | h1
        · rw [h1] at hy; exact (hc x hx).2 y hy
        · rw [h1] at hy; simp at hy
    obtain ⟨i1, i2, i3⟩ := ih (m.detach h) (fun x hx => hl x (by simp [hx])) hc'
    rw [List.foldl_cons]
    refine ⟨fun x hx => (i1 x hx).trans (outside x hx), fun x => ?_, fun x hx => ?_⟩
    · have a := i2 x
      have b := step x
      refine ⟨a.1.trans b.1, a.2.1.trans b.2.1, a.2.2.1.trans b.2.2.1, ?_, ?_, ?_⟩
      · rcases a.2.2.2.1 with h1 | h1
        · rw [h1]; exact b.2.2.2.1
        · exact Or.inr h1
      · rcases a.2.2.2.2.1 with h1 | h1
        · rw [h1]; exact b.2.2.2.2.1
        · exact Or.inr h1
      · rcases a.2.2.2.2.2 with h1 | h1
        · rw [h1]; exact b.2.2.2.2.2
        · exact Or.inr h1
    · rcases List.mem_cons.1 hx with rfl | hx
      · have a := i2 x
        have b := detach_self m x
        rw [b.1, b.2.1, b.2.2] at a
        exact ⟨a.2.2.2.1.elim id id, a.2.2.2.2.1.elim id id, a.2.2.2.2.2.elim id id⟩
      · exact i3 x hx

theorem detach_fold_same (l : List Nat) : ∀ (m : Mesh P), (l.foldl Mesh.detach m).nV = m.nV ∧ (l.foldl Mesh.detach m).nE = m.nE ∧
    (l.foldl Mesh.detach m).nH = m.nH ∧ (l.foldl Mesh.detach m).nF = m.nF ∧ (l.foldl Mesh.detach m).pos = m.pos ∧
    (l.foldl Mesh.detach m).vh = m.vh ∧ (l.foldl Mesh.detach m).eh = m.eh ∧ (l.foldl Mesh.detach m).fh = m.fh ∧
    (l.foldl Mesh.detach m).vRem = m.vRem ∧ (l.foldl Mesh.detach m).eRem = m.eRem ∧ (l.foldl Mesh.detach m).hRem = m.hRem ∧
    (l.foldl Mesh.detach m).fRem = m.fRem := by
  induction l with
  | nil => intro m; simp
  | cons h l ih => intro m; exact ih (m.detach h)

theorem chain_closed {m : Mesh P} {l : List Nat} (hc : Chain m l) : Closed m l := by
  intro h hh
  constructor
  · intro y hy
    have : h ∈ (cycPairs l).map Prod.fst := by rw [cycPairs_fst]; exact hh
    obtain ⟨p, hp, rfl⟩ := List.mem_map.1 this
    have := (hc p hp).1
    rw [hy] at this
    simp only [Option.some.injEq] at this
    have h2 := (List.of_mem_zip hp).2
    rw [List.mem_rotate] at h2
    rw [this]; exact h2
  · intro y hy
    have : h ∈ (cycPairs l).map Prod.snd := by rw [cycPairs_snd, List.mem_rotate]; exact hh
    obtain ⟨p, hp, rfl⟩ := List.mem_map.1 this
    have := (hc p hp).2.1
    rw [hy] at this
    simp only [Option.some.injEq] at this
    rw [this]; exact (List.of_mem_zip hp).1

theorem WF.ofFace {m : Mesh P} (W : WF m) {h f : Nat} (hh : LiveH m h) (hf : (m.hd h).f = some f) : LiveF m f ∧ h ∈ m.fh f := by
  rcases W.h_face h f hh hf with ⟨_, h2⟩ | ⟨_, h2, h3⟩
  · simp at h2
  · exact ⟨h2, h3⟩

theorem WF.faceOK {m : Mesh P} (W : WF m) {f : Nat} (hf : LiveF m f) : FaceOK m f :=
  W.face f hf (fun e => by have := hf.1; omega)

/-- The effect of removing a face. -/
structure FaceRemoved (m m' : Mesh P) (f : Nat) : Prop where
  wf : WF m'
  live : ∀ g, LiveF m' g ↔ LiveF m g ∧ g ≠ f
  fRem : m'.fRem = m.fRem ++ [f]
  fh : m'.fh = m.fh
  others : m'.nV = m.nV ∧ m'.nE = m.nE ∧ m'.nH = m.nH ∧ m'.nF = m.nF ∧ m'.pos = m.pos ∧ m'.vRem = m.vRem ∧ m'.eRem = m.eRem ∧ m'.hRem = m.hRem
  tgt : ∀ h, (m'.hd h).t = (m.hd h).t
  face : ∀ h, LiveH m h → (m'.hd h).f = if (m.hd h).f = some f then none else (m.hd h).f

theorem removeFace_spec {m : Mesh P} (W : WF m) {f : Nat} (hf : LiveF m f) : FaceRemoved m (m.removeFace f) f := by
  have G := W.faceOK hf
  obtain ⟨d1, d2, d3⟩ := detach_fold (m.fh f) (m.fh f) m (fun _ h => h) (chain_closed G.chain)
  obtain ⟨k1, k2, k3, k4, k5, k6, k7, k8, k9, k10, k11, k12⟩ := detach_fold_same (m.fh f) m
  have mem_iff : ∀ h, LiveH m h → (h ∈ m.fh f ↔ (m.hd h).f = some f) := by
    intro h hh
    exact ⟨fun hm => (G.mem h hm).2, fun hm => (W.ofFace hh hm).2⟩
  have hface : ∀ h, LiveH m h → (((m.fh f).foldl Mesh.detach m).hd h).f = if (m.hd h).f = some f then none else (m.hd h).f := by
    intro h hh
    by_cases hm : h ∈ m.fh f
    · rw [(d3 h hm).1, if_pos ((mem_iff h hh).1 hm)]
    · rw [d1 h hm, if_neg (fun e => hm ((mem_iff h hh).2 e))]
  have hlive : ∀ g, LiveF (m.removeFace f) g ↔ LiveF m g ∧ g ≠ f := by
    intro g
    unfold Mesh.removeFace LiveF Live
    simp only [k4, k12, List.mem_append, List.mem_singleton, not_or]
    constructor
    · rintro ⟨a, b, c⟩; exact ⟨⟨a, b⟩, c⟩
    · rintro ⟨⟨a, b⟩, c⟩; exact ⟨a, b, c⟩
  have hH : ∀ h, LiveH (m.removeFace f) h ↔ LiveH m h := by intro h; unfold LiveH Mesh.removeFace; simp only [k3, k11]
  have hV : ∀ h, LiveV (m.removeFace f) h ↔ LiveV m h := by intro h; unfold LiveV Mesh.removeFace; simp only [k1, k9]
  have hE : ∀ h, LiveE (m.removeFace f) h ↔ LiveE m h := by intro h; unfold LiveE Mesh.removeFace; simp only [k2, k10]
  have hhd : (m.removeFace f).hd = ((m.fh f).foldl Mesh.detach m).hd := rfl
  have hvh : (m.removeFace f).vh = m.vh := k6
  have heh : (m.removeFace f).eh = m.eh := k7
  have hfh : (m.removeFace f).fh = m.fh := k8
  have hfr : (m.removeFace f).fRem = m.fRem ++ [f] := by show ((m.fh f).foldl Mesh.detach m).fRem ++ [f] = _; rw [k12]
  have hnf : (m.removeFace f).nF = m.nF := k4
  have hhr : (m.removeFace f).hRem = m.hRem := k11
  have her : (m.removeFace f).eRem = m.eRem := k10
  have hvr : (m.removeFace f).vRem = m.vRem := k9
  have hnv : (m.removeFace f).nV = m.nV := k1
  have hne : (m.removeFace f).nE = m.nE := k2
  have hnh : (m.removeFace f).nH = m.nH := k3
  refine ⟨?_, hlive, hfr, hfh, ⟨k1, k2, k3, k4, k5, k9, k10, k11⟩, fun h => (d2 h).1, fun h hh => by rw [hhd]; exact hface h hh⟩
  refine { nH_eq := by rw [hnh, hne]; exact W.nH_eq, hRem_eq := by rw [hhr, her]; exact W.hRem_eq, eRem_nd := by rw [her]; exact W.eRem_nd,
           eRem_lt := by rw [her, hne]; exact W.eRem_lt, vRem_nd := by rw [hvr]; exact W.vRem_nd, vRem_lt := by rw [hvr, hnv]; exact W.vRem_lt,
           fRem_nd := ?_, fRem_lt := ?_, edge := by intro e he; rw [heh]; exact W.edge e ((hE e).1 he), half := ?_, dead := ?_,
           vh_nd := by rw [hvh]; exact W.vh_nd, vh_mem := ?_, face := ?_, h_face := ?_, acc_ok := by simp, free := ?_ }
  · rw [hfr, List.nodup_append]
    refine ⟨W.fRem_nd, by simp, ?_⟩
    intro a ha b hb
    rw [List.mem_singleton] at hb
    rintro rfl; exact hf.2 (hb ▸ ha)
  · intro g hg
    rw [hfr, List.mem_append, List.mem_singleton] at hg
    rw [hnf]
    rcases hg with hg | rfl
    · exact W.fRem_lt g hg
    · exact hf.1
  · intro h hh
    rw [hH] at hh
    rw [hhd, (d2 h).1, (d2 h).2.1, (d2 h).2.2.1, (d2 (opposite h)).1, hV]
    exact W.half h hh
  · intro h hh
    rw [hhr] at hh
    have hm : h ∉ m.fh f := fun hm => (G.mem h hm).1.2 hh
    rw [hhd, d1 h hm]; exact W.dead h hh
  · intro v h
    rw [hvh, hH, hhd, (d2 h).1]; exact W.vh_mem v h
  · intro g hg _
    rw [hlive] at hg
    have K := W.faceOK hg.1
    have hdis : ∀ x ∈ m.fh g, x ∉ m.fh f := by
      intro x hx hxf
      have a := (K.mem x hx).2
      have b := (G.mem x hxf).2
      rw [a] at b; simp at b; exact hg.2 b
    refine ⟨by rw [hfh]; exact K.len, by rw [hfh]; exact K.nd, ?_, ?_⟩
    · intro x hx
      rw [hfh] at hx
      rw [hH, hhd, d1 x (hdis x hx)]; exact K.mem x hx
    · rw [hfh]
      exact K.chain.congr (fun x hx => ⟨by rw [hhd]; exact d1 x (hdis x hx), by rw [hhd]; exact (d2 _).1⟩)
  · intro h g hh hg
    rw [hH] at hh
    rw [hhd, hface h hh] at hg
    right
    have hg' : (m.hd h).f = some g ∧ g ≠ f := by
      by_cases hc : (m.hd h).f = some f
      · rw [if_pos hc] at hg; simp at hg
      · rw [if_neg hc] at hg
        exact ⟨hg, fun e => hc (by rw [hg, e])⟩
    have := W.ofFace hh hg'.1
    refine ⟨?_, (hlive g).2 ⟨this.1, hg'.2⟩, by rw [hfh]; exact this.2⟩
    rw [hnf]; intro e; have := this.1.1; omega
  · intro h hh hg
    rw [hH] at hh
    rw [hhd, hface h hh, hnf] at hg
    by_cases hc : (m.hd h).f = some f
    · have := d3 h ((mem_iff h hh).2 hc)
      rw [hhd]; exact this.2
    · rw [if_neg hc] at hg
      have hm : h ∉ m.fh f := fun hm => hc ((mem_iff h hh).1 hm)
      rw [hhd, d1 h hm]
      exact W.free h hh hg

/-! ### removing an edge -/

/-- Cutting the link to the opposite halfedge. -/
def cutO (hd : Nat → HData) (h : Nat) : Nat → HData :=
  match (hd h).o with
    | none => hd
    | some ho =>
      let hd := upd hd ho { hd ho with o := none }
      upd hd h { hd h with o := none }

theorem cutO_spec (hd : Nat → HData) (h x : Nat) : ((cutO hd h) x).t = (hd x).t ∧ ((cutO hd h) x).f = (hd x).f ∧
    ((cutO hd h) x).e = (hd x).e ∧ ((cutO hd h) x).n = (hd x).n ∧ ((cutO hd h) x).p = (hd x).p ∧
    (x ≠ h → (hd h).o ≠ some x → (cutO hd h) x = hd x) := by
  unfold cutO
  cases ho : (hd h).o with
  | none => simp
  | some y =>
    simp only [upd]
    by_cases hx : x = h
    · subst hx
      by_cases hy : x = y
      · subst hy; simp
      · simp [hy]
    · by_cases hy : x = y
      · subst hy; simp [hx]
      · simp [hx, hy]

theorem cutN_none (hd : Nat → HData) (h : Nat) (hn : (hd h).n = none) : cutN hd h = hd := by unfold cutN; rw [hn]

theorem cutP_none (hd : Nat → HData) (h : Nat) (hn : (hd h).p = none) : cutP hd h = hd := by unfold cutP; rw [hn]

/-- One step of `remove_edge`. -/
def Mesh.dropHalf (m : Mesh P) (h : Nat) : Mesh P := Mesh.removeHalfedge { m with hd := upd m.hd h { m.hd h with e := none } } h

theorem dropHalf_spec (m : Mesh P) (h : Nat) (hn : (m.hd h).n = none) (hp : (m.hd h).p = none) :
    (m.dropHalf h).nV = m.nV ∧ (m.dropHalf h).nE = m.nE ∧ (m.dropHalf h).nH = m.nH ∧ (m.dropHalf h).nF = m.nF ∧ (m.dropHalf h).pos = m.pos ∧
    (m.dropHalf h).eh = m.eh ∧ (m.dropHalf h).fh = m.fh ∧ (m.dropHalf h).vRem = m.vRem ∧ (m.dropHalf h).eRem = m.eRem ∧
    (m.dropHalf h).fRem = m.fRem ∧ (m.dropHalf h).hRem = m.hRem ++ [h] ∧
    (m.dropHalf h).vh = upd m.vh (m.hd h).t ((m.vh (m.hd h).t).erase h) ∧
    (∀ x, ((m.dropHalf h).hd x).t = (m.hd x).t ∧ ((m.dropHalf h).hd x).f = (m.hd x).f ∧ ((m.dropHalf h).hd x).n = (m.hd x).n ∧
      ((m.dropHalf h).hd x).p = (m.hd x).p) ∧
    (∀ x, x ≠ h → (m.hd h).o ≠ some x → (m.dropHalf h).hd x = m.hd x) := by
  have e0 : (m.dropHalf h).hd = cutP (cutO (cutN (upd m.hd h { m.hd h with e := none }) h) h) h := rfl
  have hn' : ((upd m.hd h { m.hd h with e := none }) h).n = none := by simp [upd, hn]
  have hp' : ((upd m.hd h { m.hd h with e := none }) h).p = none := by simp [upd, hp]
  have C := cutO_spec (upd m.hd h { m.hd h with e := none }) h
  have e1 : (m.dropHalf h).hd = cutO (upd m.hd h { m.hd h with e := none }) h := by
    rw [e0, cutN_none _ _ hn', cutP_none]
    rw [(C h).2.2.2.2.1, hp']
  have U : ∀ x, ((upd m.hd h { m.hd h with e := none }) x).t = (m.hd x).t ∧ ((upd m.hd h { m.hd h with e := none }) x).f = (m.hd x).f ∧
      ((upd m.hd h { m.hd h with e := none }) x).n = (m.hd x).n ∧ ((upd m.hd h { m.hd h with e := none }) x).p = (m.hd x).p := by
    intro x
    by_cases hx : x = h
    · subst hx; simp [upd]
    · simp [upd, hx]
  have T : ∀ x, ((m.dropHalf h).hd x).t = (m.hd x).t ∧ ((m.dropHalf h).hd x).f = (m.hd x).f ∧ ((m.dropHalf h).hd x).n = (m.hd x).n ∧
      ((m.dropHalf h).hd x).p = (m.hd x).p := by
    intro x
    rw [e1, (C x).1, (C x).2.1, (C x).2.2.2.1, (C x).2.2.2.2.1]; exact U x
  refine ⟨rfl, rfl, rfl, rfl, rfl, rfl, rfl, rfl, rfl, rfl, rfl, ?_, T, ?_⟩
  · show upd m.vh ((m.dropHalf h).hd h).t ((m.vh ((m.dropHalf h).hd h).t).erase h) = _
    rw [(T h).1]
  · intro x hx ho
    rw [e1, (C x).2.2.2.2.2 hx (by simp [upd]; exact ho)]
    simp [upd, hx]

/-- The effect of removing an edge. -/
structure EdgeRemoved (m m' : Mesh P) (e : Nat) : Prop where
  wf : WF m'
  live : ∀ x, LiveE m' x ↔ LiveE m x ∧ x ≠ e
  eRem : m'.eRem = m.eRem ++ [e]
  hRem : m'.hRem = m.hRem ++ [2 * e, 2 * e + 1]
  fh : m'.fh = m.fh
  others : m'.nV = m.nV ∧ m'.nE = m.nE ∧ m'.nH = m.nH ∧ m'.nF = m.nF ∧ m'.pos = m.pos ∧ m'.vRem = m.vRem ∧ m'.fRem = m.fRem
  tgt : ∀ h, (m'.hd h).t = (m.hd h).t ∧ (m'.hd h).f = (m.hd h).f

theorem removeEdge_spec {m : Mesh P} (W : WF m) {e : Nat} (he : LiveE m e) (h0 : (m.hd (2 * e)).f = none) (h1 : (m.hd (2 * e + 1)).f = none) :
    EdgeRemoved m (m.removeEdge e) e := by
  have hE := W.edge e he
  have l0 : LiveH m (2 * e) := (W.liveH_iff _).2 (by rwa [show 2 * e / 2 = e by omega])
  have l1 : LiveH m (2 * e + 1) := (W.liveH_iff _).2 (by rwa [show (2 * e + 1) / 2 = e by omega])
  have f0 := W.free _ l0 (Or.inl h0)
  have f1 := W.free _ l1 (Or.inl h1)
  have a0 := W.half _ l0
  have a1 := W.half _ l1
  rw [opposite_even] at a0
  rw [opposite_odd] at a1
  obtain ⟨p1, p2, p3, p4, p5, p6, p7, p8, p9, p10, p11, p12, p13, p14⟩ := dropHalf_spec m (2 * e) f0.1 f0.2
  obtain ⟨q1, q2, q3, q4, q5, q6, q7, q8, q9, q10, q11, q12, q13, q14⟩ := dropHalf_spec (m.dropHalf (2 * e)) (2 * e + 1)
    (by rw [(p13 _).2.2.1]; exact f1.1) (by rw [(p13 _).2.2.2]; exact f1.2)
  -- the opposite link of the second halfedge has been cut by the first step
  have ho1 : ((m.dropHalf (2 * e)).hd (2 * e + 1)).o = none := by
    have e0 : (m.dropHalf (2 * e)).hd = cutP (cutO (cutN (upd m.hd (2 * e) { m.hd (2 * e) with e := none }) (2 * e)) (2 * e)) (2 * e) := rfl
    rw [e0, cutN_none _ _ (by simp [upd, f0.1])]
    rw [(cutP_spec _ _ _).2.1]
    unfold cutO
    have : ((upd m.hd (2 * e) { m.hd (2 * e) with e := none }) (2 * e)).o = some (2 * e + 1) := by simp [upd, a0.1]
    rw [this]
    simp [upd]
  have heq : m.removeEdge e = { ((m.dropHalf (2 * e)).dropHalf (2 * e + 1)) with
      eh := upd ((m.dropHalf (2 * e)).dropHalf (2 * e + 1)).eh e none,
      eRem := ((m.dropHalf (2 * e)).dropHalf (2 * e + 1)).eRem ++ [e] } := by
    unfold Mesh.removeEdge
    rw [hE]
    simp only [opposite_even]
    rfl
  generalize hm2 : (m.dropHalf (2 * e)).dropHalf (2 * e + 1) = m2 at *
  have hd_other : ∀ x, x / 2 ≠ e → m2.hd x = m.hd x := by
    intro x hx
    rw [q14 x (by omega) (by rw [ho1]; simp), p14 x (by omega) (by rw [a0.1]; simp; omega)]
  have hd_same : ∀ x, (m2.hd x).t = (m.hd x).t ∧ (m2.hd x).f = (m.hd x).f ∧ (m2.hd x).n = (m.hd x).n ∧ (m2.hd x).p = (m.hd x).p := by
    intro x
    have a := q13 x
    have b := p13 x
    exact ⟨a.1.trans b.1, a.2.1.trans b.2.1, a.2.2.1.trans b.2.2.1, a.2.2.2.trans b.2.2.2⟩
  have hrem : (m.removeEdge e).hRem = m.hRem ++ [2 * e, 2 * e + 1] := by
    rw [heq]; show m2.hRem = _; rw [q11, p11]; simp
  have erem : (m.removeEdge e).eRem = m.eRem ++ [e] := by
    rw [heq]; show m2.eRem ++ [e] = _; rw [q9, p9]
  have hhd : (m.removeEdge e).hd = m2.hd := by rw [heq]
  have hvh : ∀ v x, x ∈ (m.removeEdge e).vh v ↔ x ∈ m.vh v ∧ x / 2 ≠ e := by
    intro v x
    have : (m.removeEdge e).vh = m2.vh := by rw [heq]
    rw [this, q12, (p13 _).1, p12]
    have nd := W.vh_nd
    have w0 : ∀ v, 2 * e ∈ m.vh v ↔ (m.hd (2 * e)).t = v := fun v => by rw [W.vh_mem]; exact and_iff_right l0
    have w1 : ∀ v, 2 * e + 1 ∈ m.vh v ↔ (m.hd (2 * e + 1)).t = v := fun v => by rw [W.vh_mem]; exact and_iff_right l1
    have hne := a0.2.2.2
    unfold upd
    rw [if_neg hne]
    by_cases v1 : v = (m.hd (2 * e + 1)).t
    · rw [if_pos v1, ← v1, (nd v).mem_erase_iff]
      have : 2 * e ∉ m.vh v := by rw [w0]; rw [v1]; exact fun h => hne h.symm
      constructor
      · rintro ⟨a, b⟩
        refine ⟨b, fun hx => ?_⟩
        rcases div_eq_cases x e hx with rfl | rfl
        · exact this b
        · exact a rfl
      · rintro ⟨a, b⟩
        exact ⟨fun hx => b (by omega), a⟩
    · rw [if_neg v1]
      by_cases v0 : v = (m.hd (2 * e)).t
      · rw [if_pos v0, ← v0, (nd v).mem_erase_iff]
        have : 2 * e + 1 ∉ m.vh v := by rw [w1]; exact fun h => v1 h.symm
        constructor
        · rintro ⟨a, b⟩
          refine ⟨b, fun hx => ?_⟩
          rcases div_eq_cases x e hx with rfl | rfl
          · exact a rfl
          · exact this b
        · rintro ⟨a, b⟩
          exact ⟨fun hx => b (by omega), a⟩
      · rw [if_neg v0]
        constructor
        · intro b
          refine ⟨b, fun hx => ?_⟩
          rcases div_eq_cases x e hx with rfl | rfl
          · exact v0 ((w0 v).1 b).symm
          · exact v1 ((w1 v).1 b).symm
        · exact fun h => h.1
  have hvnd : ∀ v, ((m.removeEdge e).vh v).Nodup := by
    intro v
    have : (m.removeEdge e).vh = m2.vh := by rw [heq]
    rw [this, q12, (p13 _).1, p12]
    have nd := W.vh_nd
    unfold upd
    rw [if_neg a0.2.2.2]
    split
    · exact (nd _).erase _
    · split
      · exact (nd _).erase _
      · exact nd _
  have hlE : ∀ x, LiveE (m.removeEdge e) x ↔ LiveE m x ∧ x ≠ e := by
    intro x
    unfold LiveE Live
    rw [erem, show (m.removeEdge e).nE = m.nE by rw [heq]; exact q2.trans p2, List.mem_append, List.mem_singleton, not_or]
    constructor
    · rintro ⟨a, b, c⟩; exact ⟨⟨a, b⟩, c⟩
    · rintro ⟨⟨a, b⟩, c⟩; exact ⟨a, b, c⟩
  have hlH : ∀ x, LiveH (m.removeEdge e) x ↔ LiveH m x ∧ x / 2 ≠ e := by
    intro x
    unfold LiveH Live
    rw [hrem, show (m.removeEdge e).nH = m.nH by rw [heq]; exact q3.trans p3, List.mem_append, not_or]
    simp only [List.mem_cons, List.not_mem_nil, or_false]
    constructor
    · rintro ⟨a, b, c⟩; exact ⟨⟨a, b⟩, by omega⟩
    · rintro ⟨⟨a, b⟩, c⟩; exact ⟨a, b, by omega⟩
  have hnV : (m.removeEdge e).nV = m.nV := by rw [heq]; exact q1.trans p1
  have hvR : (m.removeEdge e).vRem = m.vRem := by rw [heq]; exact q8.trans p8
  have hnF : (m.removeEdge e).nF = m.nF := by rw [heq]; exact q4.trans p4
  have hfR : (m.removeEdge e).fRem = m.fRem := by rw [heq]; exact q10.trans p10
  have hfh : (m.removeEdge e).fh = m.fh := by rw [heq]; exact q7.trans p7
  have hnE : (m.removeEdge e).nE = m.nE := by rw [heq]; exact q2.trans p2
  have hnH : (m.removeEdge e).nH = m.nH := by rw [heq]; exact q3.trans p3
  have hlV : ∀ v, LiveV (m.removeEdge e) v ↔ LiveV m v := by intro v; unfold LiveV; rw [hnV, hvR]
  have hlF : ∀ v, LiveF (m.removeEdge e) v ↔ LiveF m v := by intro v; unfold LiveF; rw [hnF, hfR]
  refine ⟨?_, hlE, erem, hrem, hfh, ⟨hnV, hnE, hnH, hnF, by rw [heq]; exact q5.trans p5, hvR, hfR⟩,
    fun h => by rw [hhd]; exact ⟨(hd_same h).1, (hd_same h).2.1⟩⟩
  refine { nH_eq := by rw [hnH, hnE]; exact W.nH_eq, hRem_eq := ?_, eRem_nd := ?_, eRem_lt := ?_, vRem_nd := by rw [hvR]; exact W.vRem_nd,
           vRem_lt := by rw [hvR, hnV]; exact W.vRem_lt, fRem_nd := by rw [hfR]; exact W.fRem_nd, fRem_lt := by rw [hfR, hnF]; exact W.fRem_lt,
           edge := ?_, half := ?_, dead := ?_, vh_nd := hvnd, vh_mem := ?_, face := ?_, h_face := ?_, acc_ok := by simp, free := ?_ }
  · rw [hrem, erem, List.flatMap_append, W.hRem_eq]; rfl
  · rw [erem, List.nodup_append]
    refine ⟨W.eRem_nd, by simp, ?_⟩
    intro a ha b hb
    rw [List.mem_singleton] at hb
    rintro rfl; exact he.2 (hb ▸ ha)
  · intro x hx
    rw [erem, List.mem_append, List.mem_singleton] at hx
    rw [hnE]
    rcases hx with hx | rfl
    · exact W.eRem_lt x hx
    · exact he.1
  · intro x hx
    rw [hlE] at hx
    have : (m.removeEdge e).eh x = m.eh x := by
      rw [heq]; show upd m2.eh e none x = _
      rw [upd_other _ _ _ _ hx.2, q6, p6]
    rw [this]; exact W.edge x hx.1
  · intro h hh
    rw [hlH] at hh
    rw [hhd, hd_other h hh.2, (hd_same (opposite h)).1, hlV]
    exact W.half h hh.1
  · intro h hh
    rw [hhd, (hd_same h).2.1, (hd_same h).2.2.1, (hd_same h).2.2.2]
    rw [hrem, List.mem_append] at hh
    rcases hh with hh | hh
    · exact W.dead h hh
    · simp only [List.mem_cons, List.not_mem_nil, or_false] at hh
      rcases hh with rfl | rfl
      · exact ⟨h0, f0⟩
      · exact ⟨h1, f1⟩
  · intro v h
    rw [hvh, hlH, hhd, (hd_same h).1, W.vh_mem]
    constructor
    · rintro ⟨⟨a, b⟩, c⟩; exact ⟨⟨a, c⟩, b⟩
    · rintro ⟨⟨a, c⟩, b⟩; exact ⟨⟨a, b⟩, c⟩
  · intro g hg _
    rw [hlF] at hg
    have K := W.faceOK hg
    have hdis : ∀ x ∈ m.fh g, x / 2 ≠ e := by
      intro x hx hxe
      have := (K.mem x hx).2
      rcases div_eq_cases x e hxe with rfl | rfl
      · rw [h0] at this; simp at this
      · rw [h1] at this; simp at this
    refine ⟨by rw [hfh]; exact K.len, by rw [hfh]; exact K.nd, ?_, ?_⟩
    · intro x hx
      rw [hfh] at hx
      rw [hlH, hhd, hd_other x (hdis x hx)]
      exact ⟨⟨(K.mem x hx).1, hdis x hx⟩, (K.mem x hx).2⟩
    · rw [hfh]
      exact K.chain.congr (fun x hx => ⟨by rw [hhd]; exact hd_other x (hdis x hx), by rw [hhd]; exact (hd_same _).1⟩)
  · intro h g hh hg
    rw [hlH] at hh
    rw [hhd, (hd_same h).2.1] at hg
    have := W.ofFace hh.1 hg
    exact Or.inr ⟨fun e' => by rw [hnF] at e'; have := this.1.1; omega, (hlF g).2 this.1, by rw [hfh]; exact this.2⟩
  · intro h hh hg
    rw [hlH] at hh
    rw [hhd, (hd_same h).2.1, hnF] at hg
    rw [hhd, (hd_same h).2.2.1, (hd_same h).2.2.2]
    exact W.free h hh.1 hg

/-! ### vertices -/

/-- The vertex descriptor that the next `add_vertex` uses. -/
def newVertex (m : Mesh P) : Nat := m.vRem.headD m.nV

/-- The effect of adding a vertex. -/
structure VertexAdded (m m' : Mesh P) (p : P) (v : Nat) : Prop where
  wf : WF m'
  live : ∀ x, LiveV m' x ↔ LiveV m x ∨ x = v
  fresh : ¬ LiveV m v
  pos : m'.pos v = p
  pos_old : ∀ x, LiveV m x → m'.pos x = m.pos x
  vRem : m'.vRem = m.vRem.tail
  nV : m'.nV = if m.vRem = [] then m.nV + 1 else m.nV
  others : m'.nE = m.nE ∧ m'.nH = m.nH ∧ m'.nF = m.nF ∧ m'.eRem = m.eRem ∧ m'.hRem = m.hRem ∧ m'.fRem = m.fRem ∧ m'.hd = m.hd ∧ m'.fh = m.fh

theorem addVertex_spec {m : Mesh P} (W : WF m) (p : P) : (m.addVertex p).2 = newVertex m ∧ VertexAdded m (m.addVertex p).1 p (newVertex m) := by
  have fresh : ¬ LiveV m (newVertex m) := by
    unfold newVertex
    cases hv : m.vRem with
    | nil => intro h; have := h.1; simp at this
    | cons a l => intro h; exact h.2 (by rw [hv]; simp)
  have key : ∀ m' : Mesh P, (∀ x, LiveV m' x ↔ LiveV m x ∨ x = newVertex m) → m'.vRem.Nodup → (∀ v ∈ m'.vRem, v < m'.nV) →
      (∀ v, m'.vh v = m.vh v) → (m'.nE = m.nE ∧ m'.nH = m.nH ∧ m'.nF = m.nF ∧ m'.eRem = m.eRem ∧ m'.hRem = m.hRem ∧ m'.fRem = m.fRem ∧
      m'.hd = m.hd ∧ m'.fh = m.fh ∧ m'.eh = m.eh) → WF m' := by
    rintro m' hv hnd hlt hvh ⟨o1, o2, o3, o4, o5, o6, o7, o8, o9⟩
    have hH : ∀ x, LiveH m' x ↔ LiveH m x := by intro x; unfold LiveH; rw [o2, o5]
    have hE : ∀ x, LiveE m' x ↔ LiveE m x := by intro x; unfold LiveE; rw [o1, o4]
    have hF : ∀ x, LiveF m' x ↔ LiveF m x := by intro x; unfold LiveF; rw [o3, o6]
    refine { nH_eq := by rw [o1, o2]; exact W.nH_eq, hRem_eq := by rw [o4, o5]; exact W.hRem_eq, eRem_nd := by rw [o4]; exact W.eRem_nd,
             eRem_lt := by rw [o4, o1]; exact W.eRem_lt, vRem_nd := hnd, vRem_lt := hlt, fRem_nd := by rw [o6]; exact W.fRem_nd,
             fRem_lt := by rw [o6, o3]; exact W.fRem_lt, edge := by intro e he; rw [o9]; exact W.edge e ((hE e).1 he), half := ?_,
             dead := by rw [o5, o7]; exact W.dead, vh_nd := by intro v; rw [hvh]; exact W.vh_nd v,
             vh_mem := by intro v h; rw [hvh, hH, o7]; exact W.vh_mem v h, face := ?_, h_face := ?_, acc_ok := by simp, free := ?_ }
    · intro h hh
      rw [hH] at hh
      have := W.half h hh
      rw [o7, hv]; exact ⟨this.1, this.2.1, Or.inl this.2.2.1, this.2.2.2⟩
    · intro f hf _
      rw [hF] at hf
      have K := W.faceOK hf
      refine ⟨by rw [o8]; exact K.len, by rw [o8]; exact K.nd, ?_, ?_⟩
      · intro x hx; rw [o8] at hx; rw [hH, o7]; exact K.mem x hx
      · rw [o8]; exact K.chain.congr (fun x _ => by rw [o7]; exact ⟨rfl, rfl⟩)
    · intro h f hh hf
      rw [hH] at hh; rw [o7] at hf
      rw [o3, hF, o8]; exact W.h_face h f hh hf
    · intro h hh hf
      rw [hH] at hh; rw [o7, o3] at hf; rw [o7]; exact W.free h hh hf
  cases hv : m.vRem with
  | nil =>
    have hnv : newVertex m = m.nV := by simp [newVertex, hv]
    have heq : m.addVertex p = ({ m with nV := m.nV + 1, vh := upd m.vh m.nV [], pos := upd m.pos m.nV p }, m.nV) := by
      unfold Mesh.addVertex; rw [hv]; simp [Mesh.numVertices, hv]
    have hvempty : m.vh m.nV = [] := by
      rw [List.eq_nil_iff_forall_not_mem]
      intro h hh
      rw [W.vh_mem] at hh
      have := (W.half h hh.1).2.2.1.1
      omega
    have hlive : ∀ x, LiveV (m.addVertex p).1 x ↔ LiveV m x ∨ x = newVertex m := by
      intro x; rw [hnv, heq]; unfold LiveV Live; rw [hv]; simp; omega
    have kk := key _ hlive
    rw [hnv] at hlive fresh ⊢
    refine ⟨by rw [heq], ⟨kk ?_ ?_ ?_ ?_, hlive, fresh, ?_, ?_, ?_, ?_, ?_⟩⟩
    · rw [heq]; show m.vRem.Nodup; rw [hv]; simp
    · rw [heq]; show ∀ v ∈ m.vRem, _; rw [hv]; simp
    · intro v; rw [heq]; show upd m.vh m.nV [] v = _
      by_cases h : v = m.nV
      · subst h; rw [upd_same, hvempty]
      · rw [upd_other _ _ _ _ h]
    · rw [heq]; exact ⟨rfl, rfl, rfl, rfl, rfl, rfl, rfl, rfl, rfl⟩
    · rw [heq]; exact upd_same _ _ _
    · intro x hx; rw [heq]; exact upd_other _ _ _ _ (by have := hx.1; omega)
    · rw [heq]; show m.vRem = _; rw [hv]; rfl
    · rw [heq]; simp [hv]
    · rw [heq]; exact ⟨rfl, rfl, rfl, rfl, rfl, rfl, rfl, rfl⟩
  | cons a l =>
    have hnv : newVertex m = a := by simp [newVertex, hv]
    have heq : m.addVertex p = ({ m with vRem := l, pos := upd m.pos a p }, a) := by
      unfold Mesh.addVertex; rw [hv]
    have hnd := W.vRem_nd
    have hlt := W.vRem_lt
    rw [hv] at hnd hlt
    have hlive : ∀ x, LiveV (m.addVertex p).1 x ↔ LiveV m x ∨ x = newVertex m := by
      intro x; rw [hnv, heq]; unfold LiveV Live; rw [hv]
      rw [List.nodup_cons] at hnd
      have ha := hlt a (by simp)
      simp only [List.mem_cons, not_or]
      constructor
      · rintro ⟨x1, x2⟩
        by_cases h : x = a
        · exact Or.inr h
        · exact Or.inl ⟨x1, h, x2⟩
      · rintro (⟨x1, _, x2⟩ | rfl)
        · exact ⟨x1, x2⟩
        · exact ⟨ha, hnd.1⟩
    have kk := key _ hlive
    rw [hnv] at hlive fresh ⊢
    refine ⟨by rw [heq], ⟨kk ?_ ?_ ?_ ?_, hlive, fresh, ?_, ?_, ?_, ?_, ?_⟩⟩
    · rw [heq]; exact (List.nodup_cons.1 hnd).2
    · rw [heq]; intro v hvl; exact hlt v (by simp [hvl])
    · intro v; rw [heq]
    · rw [heq]; exact ⟨rfl, rfl, rfl, rfl, rfl, rfl, rfl, rfl, rfl⟩
    · rw [heq]; exact upd_same _ _ _
    · intro x hx; rw [heq]; exact upd_other _ _ _ _ (by rintro rfl; exact fresh hx)
    · rw [heq]; rw [hv]; rfl
    · rw [heq, hv]; rfl
    · rw [heq]; exact ⟨rfl, rfl, rfl, rfl, rfl, rfl, rfl, rfl⟩

theorem removeVertex_wf {m : Mesh P} (W : WF m) {v : Nat} (hv : LiveV m v) (hno : ∀ h, LiveH m h → m.target h ≠ v) : WF (m.removeVertex v) := by
  refine { W with vRem_nd := ?_, vRem_lt := ?_, half := ?_, face := ?_, acc_ok := by simp }
  · show (m.vRem ++ [v]).Nodup
    rw [List.nodup_append]
    refine ⟨W.vRem_nd, by simp, ?_⟩
    intro a ha b hb
    rw [List.mem_singleton] at hb
    rintro rfl; exact hv.2 (hb ▸ ha)
  · intro x hx
    have hx : x ∈ m.vRem ++ [v] := hx
    rw [List.mem_append, List.mem_singleton] at hx
    rcases hx with hx | rfl
    · exact W.vRem_lt x hx
    · exact hv.1
  · intro h hh
    have := W.half h hh
    refine ⟨this.1, this.2.1, ⟨this.2.2.1.1, ?_⟩, this.2.2.2⟩
    show (m.hd h).t ∉ m.vRem ++ [v]
    rw [List.mem_append, List.mem_singleton, not_or]
    exact ⟨this.2.2.1.2, hno h hh⟩
  · intro f hf _
    have K := W.faceOK (f := f) hf
    exact ⟨K.len, K.nd, K.mem, K.chain⟩

/-! ### histories -/

theorem wf_step {m : Mesh P} (W : WF m) (op : Op P) (hl : op.Legal m) : WF (op.run m) := by
  cases op with
  | addVertex p => exact (addVertex_spec W p).2.wf
  | addEdge v0 v1 => exact wf_of ((addEdge_spec W v0 v1 hl.2.2).2.inv W hl.1 hl.2.1 hl.2.2) (by
      rw [show Op.run m (Op.addEdge v0 v1) = (m.addEdge v0 v1).1 from rfl, (addEdge_spec W v0 v1 hl.2.2).2.liveF]; exact fun h => by have := h.1; omega)
  | addFace vi =>
    cases hr : (m.addFace vi).2 with
    | none => exact absurd hr hl.2
    | some idx => exact (addFace_spec W hl.1 idx hr).wf
  | removeFace f => exact (removeFace_spec W hl).wf
  | removeEdge e =>
    have h0 : (m.hd (2 * e)).f = none := by have := hl.2.1; rwa [halfedgeOf, show e * 2 + 0 = 2 * e by omega] at this
    have h1 : (m.hd (2 * e + 1)).f = none := by have := hl.2.2; rwa [halfedgeOf, show e * 2 + 1 = 2 * e + 1 by omega] at this
    exact (removeEdge_spec W hl.1 h0 h1).wf
  | removeVertex v => exact removeVertex_wf W hl.1 hl.2

theorem reachable_wf {d : P} {m : Mesh P} (h : Reachable d m) : WF m := by
  induction h with
  | empty => exact wf_empty d
  | step m op _ hl ih => exact wf_step ih op hl

theorem WF.consistent {m : Mesh P} (W : WF m) : Consistent m := by
  constructor
  · intro h hh
    have a := W.half h hh
    have b := W.opp_live hh
    refine ⟨b, opposite_opposite h, opposite_ne h, (W.liveH_iff h).1 hh, opposite_div h, W.source hh, a.2.2.1, ?_⟩
    rw [W.source hh]
    intro e; exact a.2.2.2 (by simpa [Mesh.target] using e)
  · intro f hf
    have K := W.faceOK hf
    exact ⟨K.len, K.nd, K.mem⟩
  · intro h f hh hf
    have K := W.ofFace hh hf
    have G := W.faceOK K.1
    refine ⟨K.1, K.2, ?_, ?_⟩
    · have : h ∈ (cycPairs (m.fh f)).map Prod.fst := by rw [cycPairs_fst]; exact K.2
      obtain ⟨p, hp, rfl⟩ := List.mem_map.1 this
      have c := G.chain p hp
      have h2 := (List.of_mem_zip hp).2
      rw [List.mem_rotate] at h2
      have l2 := G.mem _ h2
      exact ⟨p.2, c.1, c.2.1, l2.1, l2.2, by rw [W.source l2.1, c.2.2]; rfl⟩
    · have : h ∈ (cycPairs (m.fh f)).map Prod.snd := by rw [cycPairs_snd, List.mem_rotate]; exact K.2
      obtain ⟨p, hp, rfl⟩ := List.mem_map.1 this
      have c := G.chain p hp
      have h2 := (List.of_mem_zip hp).1
      have l2 := G.mem _ h2
      exact ⟨p.1, c.2.1, c.1, l2.1, l2.2, by rw [W.source hh, c.2.2]; rfl⟩
  · intro h hh hf
    exact W.free h hh (Or.inl hf)
  · intro v h
    exact ⟨W.vh_nd v, W.vh_mem v h⟩

end Mcut.Hmesh
