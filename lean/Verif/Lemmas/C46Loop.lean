import Verif.Lemmas.C46

/-! Helper lemmas for `Props/C46.lean`: loop flag, one sequence, all sequences. -/
namespace Mcut.Seam
open Hmesh
variable {P : Type}

theorem degree_two {m : Mesh P} (C : Consistent m) {S : List Nat} {v : Nat}
    (hu : ∀ h h' s, h ∈ m.vh v → h' ∈ m.vh v → s ∈ S → m.source h = some s → m.source h' = some s → h = h')
    (hd : 2 ≤ degree m S v) : ∃ a b, a ≠ b ∧ a ∈ S ∧ b ∈ S ∧ Nbr m a v ∧ Nbr m b v := by
  classical
  have hd' : degree m S v = ((m.vh v).filter (fun h => decide (∃ s ∈ S, m.source h = some s))).length := by
    rw [degree, List.countP_eq_length_filter]
  rw [hd'] at hd
  have hn : ((m.vh v).filter (fun h => decide (∃ s ∈ S, m.source h = some s))).Nodup := (C.incidence v 0).1.filter _
  have hm : ∀ h ∈ (m.vh v).filter (fun h => decide (∃ s ∈ S, m.source h = some s)), h ∈ m.vh v ∧ ∃ s ∈ S, m.source h = some s := by
    intro h hh; have := List.mem_filter.1 hh; exact ⟨this.1, by simpa using this.2⟩
  generalize (m.vh v).filter (fun h => decide (∃ s ∈ S, m.source h = some s)) = F at hd hn hm
  match F, hd with
  | x :: y :: l, _ =>
    obtain ⟨hx, s, hs, hxs⟩ := hm x (by simp)
    obtain ⟨hy, t, ht, hyt⟩ := hm y (by simp)
    have hxl := (C.incidence v x).2.1 hx
    have hyl := (C.incidence v y).2.1 hy
    refine ⟨s, t, ?_, hs, ht, ⟨x, hxl.1, hxl.2, hxs⟩, ⟨y, hyl.1, hyl.2, hyt⟩⟩
    rintro rfl
    have := hu x y s hx hy hs hxs hyt
    subst this
    simp at hn

/-- A path or cycle that is closed under neighbours: the first vertex has two neighbours exactly if it is a cycle. -/
theorem head_degree {m : Mesh P} (C : Consistent m) {S : List Nat} (L : Linear m S) {seg : List Nat} (hne : seg ≠ []) (hc : seg.IsChain (Nbr m))
    (hn : seg.Nodup) (hs : ∀ v ∈ seg, v ∈ S) (hcl : ∀ u ∈ seg, ∀ v ∈ S, Nbr m u v → v ∈ seg) :
    degree m S (seg.head hne) = 2 ↔ 3 ≤ seg.length ∧ Nbr m (seg.getLast hne) (seg.head hne) := by
  match seg, hne with
  | f :: rest, _ =>
    simp only [List.head_cons]
    constructor
    · intro hd
      obtain ⟨a, b, hab, ha, hb, na, nb⟩ := degree_two C (L f (hs f (by simp))).2 (by omega)
      have mem : ∀ x, x ∈ S → Nbr m x f → x ∈ rest := by
        intro x hx hnx
        have := hcl f (by simp) x hx (hnx.symm C)
        rcases List.mem_cons.1 this with rfl | h
        · exact absurd rfl (hnx.ne C)
        · exact h
      match rest, mem with
      | [], mem => have := mem a ha na; simp at this
      | g :: rest', mem =>
        have hx : ∃ x, x ∈ S ∧ Nbr m x f ∧ x ∈ rest' := by
          by_cases hag : a = g
          · refine ⟨b, hb, nb, ?_⟩
            rcases List.mem_cons.1 (mem b hb nb) with h | h
            · exact absurd (hag.trans h.symm) hab
            · exact h
          · refine ⟨a, ha, na, ?_⟩
            rcases List.mem_cons.1 (mem a ha na) with h | h
            · exact absurd h hag
            · exact h
        obtain ⟨x, hxS, hxf, hxr⟩ := hx
        obtain ⟨A, B, rfl⟩ := List.append_of_mem hxr
        refine ⟨by simp; omega, ?_⟩
        cases B with
        | nil => simp [List.getLast_cons]; simpa using hxf
        | cons y B' =>
          exfalso
          -- x would have three neighbours
          have e : f :: g :: (A ++ x :: y :: B') = (f :: (g :: A)) ++ x :: y :: B' := by simp
          rw [e] at hc
          have h1 := (List.isChain_append.1 hc)
          have hy : Nbr m x y := by
            have := h1.2.1
            simp only [List.isChain_cons_cons] at this
            exact this.1
          have hz : Nbr m ((g :: A).getLast (by simp)) x := by
            refine h1.2.2 _ ?_ x (by simp)
            rw [List.getLast?_eq_getLast_of_ne_nil (by simp)]
            simp [List.getLast_cons]
          have hzm : (g :: A).getLast (by simp) ∈ g :: A := List.getLast_mem _
          generalize (g :: A).getLast (by simp) = z at hz hzm
          have hnd : [f, y, z].Nodup := by
            rw [e] at hn
            simp only [List.cons_append, List.nodup_cons, List.mem_cons, List.mem_append, not_or] at hn
            simp only [List.nodup_cons, List.mem_cons, List.not_mem_nil, or_false, not_or, not_false_eq_true, List.nodup_nil, and_true]
            have hfz : f ≠ z := by
              rintro rfl
              rcases List.mem_cons.1 hzm with h | h
              · exact hn.1.1 h
              · exact hn.1.2.1 h
            refine ⟨⟨hn.1.2.2.2.1, hfz⟩, ?_⟩
            rintro rfl
            rcases List.mem_cons.1 hzm with h | h
            · exact hn.2.1.2.2.1 h.symm
            · have := List.nodup_append.1 hn.2.2
              exact this.2.2 y h y (by simp) rfl
          have := degree_le C (S := S) (v := x) hnd (by
            intro w hw
            simp at hw
            rcases hw with rfl | rfl | rfl
            · exact ⟨hs _ (by simp), hxf.symm C⟩
            · exact ⟨hs _ (by simp), hy.symm C⟩
            · refine ⟨hs _ ?_, hz⟩
              rcases List.mem_cons.1 hzm with h | h <;> simp [h])
          have := (L x hxS).1
          simp at *
          omega
    · rintro ⟨hl, hlast⟩
      match rest, hl with
      | g :: c :: rest', _ =>
        have hg : Nbr m f g := by
          simp only [List.isChain_cons_cons] at hc; exact hc.1
        have hlm : (f :: g :: c :: rest').getLast (by simp) ∈ c :: rest' := by
          simp only [List.getLast_cons_cons]
          exact List.getLast_mem _
        generalize (f :: g :: c :: rest').getLast (by simp) = z at hlast hlm
        have := degree_le C (S := S) (v := f) (l := [z, g]) (by
          simp only [List.nodup_cons, List.mem_singleton, List.not_mem_nil, not_false_eq_true, List.nodup_nil, and_true]
          rintro rfl
          exact (List.nodup_cons.1 (List.nodup_cons.1 hn).2).1 hlm) (by
          intro w hw
          simp at hw
          rcases hw with rfl | rfl
          · exact ⟨hs _ (List.mem_cons_of_mem _ (List.mem_cons_of_mem _ hlm)), hlast⟩
          · exact ⟨hs _ (by simp), hg.symm C⟩)
        have := (L f (hs f (by simp))).1
        simp at *
        omega

theorem countKeys_spec {m : Mesh P} (C : Consistent m) (keys : List Nat) (v : Nat) : ∀ (hs : List Nat) (n : Nat), (∀ h ∈ hs, h ∈ m.vh v) →
    countKeys m keys hs n = .ok (n + (hs.countP (fun h => decide (∃ s ∈ keys, m.source h = some s)))) := by
  classical
  intro hs
  induction hs with
  | nil => intro n _; simp [countKeys]
  | cons h hs ih =>
    intro n hv
    obtain ⟨u, hu, -⟩ := src_some C (hv h (by simp))
    rw [countKeys, hu]
    simp only
    rw [ih _ (fun x hx => hv x (List.mem_cons_of_mem _ hx)), List.countP_cons]
    congr 1
    by_cases hk : u ∈ keys
    · simp [hu, hk]; omega
    · have : ¬ ∃ s ∈ keys, m.source h = some s := by rintro ⟨s, h1, h2⟩; rw [hu] at h2; cases h2; exact hk h1
      simp [hk, this]

theorem count_degree {m : Mesh P} (C : Consistent m) (keys : List Nat) (v : Nat) : countKeys m keys (m.vh v) 0 = .ok (degree m keys v) := by
  rw [countKeys_spec C keys v _ _ (fun _ h => h), Nat.zero_add, degree]

theorem set_mid {A t : List Nat} {x y : Nat} : (A ++ x :: t).set A.length y = A ++ y :: t := by
  induction A with
  | nil => rfl
  | cons a A ih => simp

/-- One sequence. -/
theorem oneSeq_spec {m : Mesh P} (C : Consistent m) {keys : List Nat} (hk : keys.Nodup) {seed : Nat} (hs : seed ∈ keys) (c : Nat) (body : List Nat)
    (count off : Nat) (ho : off = body.length + 1) (hiso : ∃ u ∈ keys, Nbr m u seed) :
    ∃ (b : Bool) (seg : List Nat), oneSeq m keys seed (c :: body) count off =
        .ok ((count + 1) :: (body ++ seg.length :: (if b then 1 else 0) :: seg), count + 1, off + (seg.length + 2), keys.filter (fun v => v ∉ seg)) ∧
      seg.Nodup ∧ seed ∈ seg ∧ Component m keys seg ∧ (Linear m keys → Ordered m keys (b, seg)) := by
  obtain ⟨ps, h1, h2, h2', h3, h4⟩ := scan_spec C keys none seed (m.vh seed) [seed] [] 0 (fun _ h => h) (C.incidence seed 0).1
  have htg : ∀ p ∈ ps, m.target p.2 = seed ∧ LiveH m p.2 := fun p hp => ((C.incidence seed p.2).2.1 (h3 p hp).2.2.1).symm
  have hcov : ∀ w ∈ keys, Nbr m w seed → w ∈ ps.map Prod.fst := by
    intro w hw hn
    obtain ⟨x, hx, hxs⟩ := hn.mem C
    have := h4 x hx (by simp) w hw hxs
    rcases List.mem_append.1 this with h | h
    · exact h
    · simp at h; exact absurd h (hn.ne C)
  have hpne : ps ≠ [] := by
    obtain ⟨u, hu, hn⟩ := hiso
    have := hcov u hu hn
    rintro rfl; simp at this
  have I : WInv m keys seed [seed] (ps.map Prod.fst ++ [seed]) ps := by
    refine ⟨by simp, ?_, ?_, ?_, ?_, ?_, ?_⟩
    · rw [List.singleton_append, List.nodup_cons]
      refine ⟨?_, h2⟩
      intro hc
      obtain ⟨p, hp, e⟩ := List.mem_map.1 hc
      exact (h3 p hp).2.1 (by simp [e])
    · intro v hv
      simp only [List.singleton_append, List.mem_cons] at hv
      rcases hv with rfl | hv
      · exact hs
      · obtain ⟨p, hp, rfl⟩ := List.mem_map.1 hv; exact (h3 p hp).1
    · intro v; simp only [List.mem_append, List.mem_singleton]; tauto
    · intro u hu v hv hn
      simp at hu; subst hu
      exact List.mem_append_left _ (hcov v hv (hn.symm C))
    · intro p hp
      exact ⟨(htg p hp).2, (h3 p hp).2.2.2.1, by simp [(htg p hp).1]⟩
    · intro v hv
      simp only [List.singleton_append, List.mem_cons] at hv
      rcases hv with rfl | hv
      · exact .refl
      · obtain ⟨p, hp, rfl⟩ := List.mem_map.1 hv
        refine Relation.ReflTransGen.single ⟨(h3 p hp).1, ?_⟩
        exact Nbr.symm C ⟨p.2, (htg p hp).2, (htg p hp).1, (h3 p hp).2.2.2.1⟩
  have hpre : (c :: body ++ [UNDEF, UNDEF]).length = off + 2 := by simp [ho]
  obtain ⟨seg, tr, e, J, K⟩ := walk_spec C hk (seed := seed) (pre := c :: body ++ [UNDEF, UNDEF]) hpre (keys.length + 1) [seed] _ ps I hpne (by simp)
  have hnd : seg.Nodup := by simpa using J.nd
  have hsegne : seg ≠ [] := fun h => by have := J.ne; rw [h] at this; simp at this
  have htr : ∀ v, v ∈ tr ↔ v ∈ seg := by intro v; rw [J.trv]; simp
  have hsub : ∀ v ∈ seg, v ∈ keys := fun v hv => J.sub v (by simpa using hv)
  have hcl : ∀ u ∈ seg, ∀ v ∈ keys, Nbr m u v → v ∈ seg := fun u hu v hv hn => (htr v).1 (J.cl u hu v hv hn)
  have hcomp : Component m keys seg := by
    refine ⟨hsegne, hsub, hcl, ?_⟩
    have hc : ∀ v ∈ seg, Relation.ReflTransGen (fun a b => b ∈ keys ∧ Nbr m a b) seed v := fun v hv => J.conn v (by simpa using hv)
    have hr : ∀ v, Relation.ReflTransGen (fun a b => b ∈ keys ∧ Nbr m a b) seed v → Relation.ReflTransGen (fun a b => b ∈ keys ∧ Nbr m a b) v seed := by
      intro v hv
      have : v ∈ keys ∧ Relation.ReflTransGen (fun a b => b ∈ keys ∧ Nbr m a b) v seed := by
        induction hv with
        | refl => exact ⟨hs, .refl⟩
        | tail _ hab ih => exact ⟨hab.1, .head ⟨ih.1, hab.2.symm C⟩ ih.2⟩
      exact this.2
    intro u hu v hv
    exact (hr u (hc u hu)).trans (hc v hv)
  -- the flag
  have hflag : ∃ b : Bool, loopFlag m keys off (decide (ps.length = 1)) ((c :: body ++ [UNDEF, UNDEF]) ++ seg) = .ok (if b then 1 else 0) ∧
      (Linear m keys → (b = true ↔ degree m keys (seg.head hsegne) = 2)) := by
    unfold loopFlag
    by_cases h1 : ps.length = 1
    · refine ⟨false, by simp [h1], fun L => ?_⟩
      have O : OInv m [seed] ps := by
        obtain ⟨p, rfl⟩ := List.length_eq_one_iff.1 h1
        refine ⟨by simp, ?_, ?_, by simp⟩
        · intro q rest hq; simp at hq; simp [← hq.1, (htg p (by simp)).1]
        · intro q r rest hq; simp at hq
      have hh := (K L O).2 h1
      have hh' : seg.head hsegne = seed := by
        cases seg with
        | nil => exact absurd rfl hsegne
        | cons a l => simpa using hh
      rw [hh']
      simp only [Bool.false_eq_true, false_iff]
      intro hd
      obtain ⟨a, b, hab, ha, hb, na, nb⟩ := degree_two C (L seed hs).2 (by omega)
      have ma := hcov a ha na
      have mb := hcov b hb nb
      obtain ⟨p, rfl⟩ := List.length_eq_one_iff.1 h1
      simp at ma mb
      exact hab (ma.trans mb.symm)
    · have hfst : ((c :: body ++ [UNDEF, UNDEF]) ++ seg)[off + 2]? = some (seg.head hsegne) := by
        rw [← hpre, List.getElem?_append_right (Nat.le_refl _), Nat.sub_self]
        cases seg with
        | nil => exact absurd rfl hsegne
        | cons a l => rfl
      rw [hfst]
      simp only [h1, decide_false, Bool.false_eq_true, if_false, count_degree C]
      exact ⟨decide (degree m keys (seg.head hsegne) = 2), by simp, fun _ => by simp⟩
  obtain ⟨b, hb1, hb2⟩ := hflag
  refine ⟨b, seg, ?_, hnd, J.ne, hcomp, ?_⟩
  · unfold oneSeq
    simp only [h1, List.append_nil]
    have e' : c :: body ++ [UNDEF, UNDEF, seed] = (c :: body ++ [UNDEF, UNDEF]) ++ [seed] := by simp
    rw [e', e]
    simp only [hb1]
    have hlen : ((c :: body ++ [UNDEF, UNDEF]) ++ seg).length - (off + 2) = seg.length := by
      rw [List.length_append, hpre]; omega
    rw [hlen]
    have s1 : ((c :: body ++ [UNDEF, UNDEF]) ++ seg).set (c :: body).length seg.length = (c :: body) ++ seg.length :: UNDEF :: seg := by
      rw [show (c :: body ++ [UNDEF, UNDEF]) ++ seg = (c :: body) ++ UNDEF :: UNDEF :: seg by simp, set_mid]
    rw [s1]
    have s2 : ((c :: body) ++ seg.length :: UNDEF :: seg).set ((c :: body).length + 1) (if b then 1 else 0)
        = (c :: body) ++ seg.length :: (if b then 1 else 0) :: seg := by
      have := set_mid (A := (c :: body) ++ [seg.length]) (t := seg) (x := UNDEF) (y := if b then 1 else 0)
      simpa using this
    rw [s2]
    have hf : keys.filter (fun v => decide (v ∉ tr)) = keys.filter (fun v => decide (v ∉ seg)) := by
      congr 1; funext v; simp [htr v]
    rw [hf]
    rfl
  · intro L
    have hps2 : ps.length ≤ 2 := by
      have := degree_halfedges (m := m) (S := keys) (v := seed) (l := ps.map Prod.snd) h2' (by
        intro x hx
        obtain ⟨p, hp, rfl⟩ := List.mem_map.1 hx
        exact ⟨(h3 p hp).2.2.1, p.1, (h3 p hp).1, (h3 p hp).2.2.2.1⟩)
      have := (L seed hs).1
      simp at *
      omega
    have O : OInv m [seed] ps := by
      refine ⟨by simp, ?_, ?_, hps2⟩
      · intro q rest hq; simp [(htg q (by simp [hq])).1]
      · intro q r rest hq; simp [(htg r (by simp [hq])).1]
    have hch := (K L O).1
    refine ⟨hch, fun hne => ?_⟩
    simp only
    have hd := head_degree C L hne hch hnd hsub hcl
    rw [hb2 L]
    refine ⟨hd, fun hbf => ?_⟩
    have hh2 : degree m keys (seg.head hne) ≠ 2 := fun h => by rw [(hb2 L).2 h] at hbf; simp at hbf
    refine ⟨by have := (L _ (hsub _ (List.head_mem hne))).1; tauto, ?_⟩
    rcases (L _ (hsub _ (List.getLast_mem hne))).1 with h | h
    · exact h
    · exfalso
      have hrne : seg.reverse ≠ [] := by simpa using hne
      have hr := head_degree C L hrne (chain_rev (fun a b h => Nbr.symm C h) hch) (List.nodup_reverse.2 hnd) (fun v hv => hsub v (by simpa using hv))
        (fun u hu v hv hn => by
          have := hcl u (by simpa using hu) v hv hn
          simpa using this)
      rw [List.head_reverse, List.getLast_reverse] at hr
      obtain ⟨h5, h6⟩ := hr.1 h
      exact hh2 (hd.2 ⟨by simpa using h5, h6.symm C⟩)

/-- A seed without a neighbour: the stack is empty. -/
theorem oneSeq_isolated {m : Mesh P} (C : Consistent m) {keys : List Nat} {seed : Nat} (arr : List Nat) (count off : Nat)
    (hiso : ¬ ∃ u ∈ keys, Nbr m u seed) : oneSeq m keys seed arr count off = .error .ub := by
  obtain ⟨ps, h1, h2, h2', h3, h4⟩ := scan_spec C keys none seed (m.vh seed) [seed] [] 0 (fun _ h => h) (C.incidence seed 0).1
  have : ps = [] := by
    match ps, h3 with
    | [], _ => rfl
    | p :: l, h3 =>
      obtain ⟨a, b, c, d, -⟩ := h3 p (by simp)
      have := (C.incidence seed p.2).2.1 c
      exact absurd ⟨p.1, a, p.2, this.1, this.2, d⟩ hiso
  subst this
  unfold oneSeq
  simp only [h1]
  rfl

theorem degree_congr {m : Mesh P} {S S' : List Nat} {v : Nat} (h : ∀ x ∈ m.vh v, (∃ s ∈ S, m.source x = some s) ↔ ∃ s ∈ S', m.source x = some s) :
    degree m S v = degree m S' v := by
  classical
  unfold degree
  refine List.countP_congr ?_
  intro x hx
  simp only [decide_eq_true_eq]
  exact h x hx

/-- What is left when a component is taken away. -/
theorem rest_spec {m : Mesh P} (C : Consistent m) {keys seg : List Nat} (K : Component m keys seg) :
    (∀ u v, u ∈ keys.filter (fun v => decide (v ∉ seg)) → v ∈ keys → Nbr m u v → v ∈ keys.filter (fun v => decide (v ∉ seg))) ∧
    (NoIsolated m keys → NoIsolated m (keys.filter (fun v => decide (v ∉ seg)))) ∧
    (∀ v ∈ keys.filter (fun v => decide (v ∉ seg)), degree m (keys.filter (fun v => decide (v ∉ seg))) v = degree m keys v) ∧
    (Linear m keys → Linear m (keys.filter (fun v => decide (v ∉ seg)))) := by
  have mem : ∀ v, v ∈ keys.filter (fun v => decide (v ∉ seg)) ↔ v ∈ keys ∧ v ∉ seg := by intro v; simp
  have h1 : ∀ u v, u ∈ keys.filter (fun v => decide (v ∉ seg)) → v ∈ keys → Nbr m u v → v ∈ keys.filter (fun v => decide (v ∉ seg)) := by
    intro u v hu hv hn
    obtain ⟨a, b⟩ := (mem u).1 hu
    exact (mem v).2 ⟨hv, fun hc => b (K.closed v hc u a (hn.symm C))⟩
  have h3 : ∀ v ∈ keys.filter (fun v => decide (v ∉ seg)), degree m (keys.filter (fun v => decide (v ∉ seg))) v = degree m keys v := by
    intro v hv
    refine degree_congr (fun x hx => ?_)
    obtain ⟨u, hu, -, -, -, hn⟩ := src_some C hx
    constructor
    · rintro ⟨s, hs, e⟩; exact ⟨s, ((mem s).1 hs).1, e⟩
    · rintro ⟨s, hs, e⟩
      rw [hu] at e; cases e
      exact ⟨u, h1 v u hv hs (hn.symm C), hu⟩
  refine ⟨h1, ?_, h3, ?_⟩
  · intro N v hv
    obtain ⟨u, hu, hn⟩ := N v ((mem v).1 hv).1
    exact ⟨u, h1 v u hv hu (hn.symm C), hn⟩
  · intro L v hv
    obtain ⟨a, b⟩ := L v ((mem v).1 hv).1
    refine ⟨by rw [h3 v hv]; exact a, fun h h' s hh hh' hs => b h h' s hh hh' ((mem s).1 hs).1⟩

theorem filter_shorter {keys seg : List Nat} {seed : Nat} (hs : seed ∈ keys) (hm : seed ∈ seg) : (keys.filter (fun v => decide (v ∉ seg))).length < keys.length := by
  rw [← List.countP_eq_length_filter]
  refine Nat.lt_of_le_of_ne List.countP_le_length ?_
  intro h
  have := List.countP_eq_length.1 h seed hs
  simp [hm] at this

/-- All sequences. -/
theorem seqLoop_spec {m : Mesh P} (C : Consistent m) {order : Nat → List Nat → List Nat} (ho : ∀ k l, (order k l).Perm l) :
    ∀ (fuel : Nat) (keys : List Nat) (c : Nat) (body : List Nat) (count off : Nat), keys.Nodup → keys ≠ [] → keys.length ≤ fuel → off = body.length + 1 →
      NoIsolated m keys → ∃ seqs, seqLoop m order fuel keys (c :: body) count off =
          .ok ((count + seqs.length) :: (body ++ seqs.flatMap (fun q => q.2.length :: (if q.1 then 1 else 0) :: q.2))) ∧
        Partitions m keys seqs ∧ (Linear m keys → ∀ q ∈ seqs, Ordered m keys q) := by
  intro fuel
  induction fuel with
  | zero =>
    intro keys c body count off hk hne hf
    exact absurd (List.length_eq_zero_iff.1 (by omega)) hne
  | succ fuel ih =>
    intro keys c body count off hk hne hf hoff N
    have hhead : ∃ seed, (order count keys).head? = some seed ∧ seed ∈ keys := by
      cases hh : order count keys with
      | nil => have := (ho count keys).length_eq; rw [hh] at this; simp at this; exact absurd (List.length_eq_zero_iff.1 this.symm) hne
      | cons a l => exact ⟨a, rfl, (ho count keys).mem_iff.1 (by rw [hh]; simp)⟩
    obtain ⟨seed, h1, h2⟩ := hhead
    obtain ⟨b, seg, e, hnd, hseed, K, O⟩ := oneSeq_spec C hk h2 c body count off hoff (N seed h2)
    obtain ⟨r1, r2, r3, r4⟩ := rest_spec C K
    rw [seqLoop, h1]
    simp only [e]
    have mem : ∀ v, v ∈ keys.filter (fun v => decide (v ∉ seg)) ↔ v ∈ keys ∧ v ∉ seg := by intro v; simp
    by_cases hz : keys.filter (fun v => decide (v ∉ seg)) = []
    · rw [if_pos hz]
      refine ⟨[(b, seg)], by simp, ⟨by simpa using hnd, ?_, ?_⟩, ?_⟩
      · intro v
        simp only [List.flatMap_cons, List.flatMap_nil, List.append_nil]
        refine ⟨K.sub v, fun hv => ?_⟩
        by_contra hc
        have := (mem v).2 ⟨hv, hc⟩
        rw [hz] at this; simp at this
      · intro q hq; simp at hq; subst hq; exact K
      · intro L q hq; simp at hq; subst hq; exact O L
    · rw [if_neg hz]
      obtain ⟨seqs, e2, ⟨p1, p2, p3⟩, q1⟩ := ih (keys.filter (fun v => decide (v ∉ seg))) (count + 1) (body ++ seg.length :: (if b then 1 else 0) :: seg) (count + 1)
        (off + (seg.length + 2)) (hk.filter _) hz (by have := filter_shorter h2 hseed; omega) (by simp [hoff]; omega) (r2 N)
      refine ⟨(b, seg) :: seqs, ?_, ⟨?_, ?_, ?_⟩, ?_⟩
      · rw [e2]
        simp only [List.length_cons, List.flatMap_cons, List.append_assoc, List.cons_append]
        rw [show count + 1 + seqs.length = count + (seqs.length + 1) by omega]
      · simp only [List.flatMap_cons]
        rw [List.nodup_append]
        refine ⟨hnd, p1, ?_⟩
        rintro a ha b' hb rfl
        exact ((mem a).1 ((p2 a).1 hb)).2 ha
      · intro v
        simp only [List.flatMap_cons, List.mem_append]
        rw [p2 v, mem v]
        constructor
        · rintro (h | h)
          · exact K.sub v h
          · exact h.1
        · intro h
          by_cases hc : v ∈ seg
          · exact Or.inl hc
          · exact Or.inr ⟨h, hc⟩
      · intro q hq
        rcases List.mem_cons.1 hq with rfl | hq
        · exact K
        · have Q := p3 q hq
          refine ⟨Q.ne, fun v hv => ((mem v).1 (Q.sub v hv)).1, ?_, ?_⟩
          · intro u hu v hv hn
            exact Q.closed u hu v (r1 u v (Q.sub u hu) hv hn) hn
          · intro u hu v hv
            exact Relation.ReflTransGen.mono (p := fun a b => b ∈ keys ∧ Nbr m a b) (fun a b h => ⟨((mem b).1 h.1).1, h.2⟩) u v (Q.conn u hu v hv)
      · intro L q hq
        rcases List.mem_cons.1 hq with rfl | hq
        · exact O L
        · obtain ⟨o1, o2⟩ := q1 (r4 L) q hq
          refine ⟨o1, fun hne' => ⟨(o2 hne').1, fun hf => ?_⟩⟩
          have Q := p3 q hq
          rw [← r3 _ (Q.sub _ (List.head_mem hne')), ← r3 _ (Q.sub _ (List.getLast_mem hne'))]
          exact (o2 hne').2 hf

/-- A vertex without neighbours leads to undefined behaviour. -/
theorem seqLoop_isolated {m : Mesh P} (C : Consistent m) {order : Nat → List Nat → List Nat} (ho : ∀ k l, (order k l).Perm l) :
    ∀ (fuel : Nat) (keys : List Nat) (c : Nat) (body : List Nat) (count off : Nat), keys.Nodup → keys.length ≤ fuel → off = body.length + 1 →
      ¬ NoIsolated m keys → seqLoop m order fuel keys (c :: body) count off = .error .ub := by
  intro fuel
  induction fuel with
  | zero =>
    intro keys c body count off hk hf hoff N
    exfalso
    have : keys = [] := List.length_eq_zero_iff.1 (by omega)
    subst this
    exact N (fun v hv => by simp at hv)
  | succ fuel ih =>
    intro keys c body count off hk hf hoff N
    unfold NoIsolated at N
    push Not at N
    obtain ⟨v, hv, hno⟩ := N
    have hhead : ∃ seed, (order count keys).head? = some seed ∧ seed ∈ keys := by
      cases hh : order count keys with
      | nil => have := (ho count keys).length_eq; rw [hh] at this; simp at this; rw [List.length_eq_zero_iff.1 this.symm] at hv; simp at hv
      | cons a l => exact ⟨a, rfl, (ho count keys).mem_iff.1 (by rw [hh]; simp)⟩
    obtain ⟨seed, h1, h2⟩ := hhead
    rw [seqLoop, h1]
    simp only
    by_cases hs : ∃ u ∈ keys, Nbr m u seed
    · obtain ⟨b, seg, e, hnd, hseed, K, O⟩ := oneSeq_spec C hk h2 c body count off hoff hs
      simp only [e]
      have hvs : v ∉ seg := by
        intro hc
        have := K.conn seed hseed v hc
        rcases Relation.ReflTransGen.cases_tail this with h | ⟨w, h5, h6⟩
        · subst h
          obtain ⟨u, hu, hn⟩ := hs
          exact hno u hu hn
        · have hw : w ∈ keys := by
            rcases Relation.ReflTransGen.cases_tail h5 with h | ⟨x, h7, h8⟩
            · rw [h]; exact h2
            · exact h8.1
          exact hno w hw h6.2
      have hmem : v ∈ keys.filter (fun v => decide (v ∉ seg)) := by simp [hv, hvs]
      rw [if_neg (fun h => by rw [h] at hmem; simp at hmem)]
      refine ih _ _ _ _ _ (hk.filter _) (by have := filter_shorter h2 hseed; omega) (by simp [hoff]; omega) ?_
      intro N'
      obtain ⟨u, hu, hn⟩ := N' v hmem
      exact hno u (List.mem_filter.1 hu).1 hn
    · rw [oneSeq_isolated C _ _ _ hs]

end Mcut.Seam
