import Verif.Spec.C46
import Mathlib.Data.List.Chain
import Mathlib.Data.List.Perm.Subperm
import Mathlib.Data.List.Dedup
import Mathlib.Tactic.ByContra

/-! Helper lemmas for `Props/C46.lean`. -/
namespace Mcut.Seam
open Hmesh
variable {P : Type}

theorem same_edge {a b : Nat} (h : edgeOf a = edgeOf b) : a = b ∨ a = opposite b := by
  unfold edgeOf at h; unfold opposite; split <;> omega

theorem src_some {m : Mesh P} (C : Consistent m) {v h : Nat} (hh : h ∈ m.vh v) :
    ∃ u, m.source h = some u ∧ u ≠ v ∧ LiveH m h ∧ m.target h = v ∧ Nbr m u v := by
  obtain ⟨hl, ht⟩ := (C.incidence v h).2.1 hh
  have := C.opp h hl
  refine ⟨_, this.2.2.2.2.2.1, ?_, hl, ht, h, hl, ht, this.2.2.2.2.2.1⟩
  intro e
  exact this.2.2.2.2.2.2.2 (by rw [this.2.2.2.2.2.1, e, ht])

theorem Nbr.mem {m : Mesh P} (C : Consistent m) {u v : Nat} (h : Nbr m u v) : ∃ x ∈ m.vh v, m.source x = some u := by
  obtain ⟨x, hl, ht, hs⟩ := h
  exact ⟨x, (C.incidence v x).2.2 ⟨hl, ht⟩, hs⟩

theorem Nbr.symm {m : Mesh P} (C : Consistent m) {u v : Nat} (h : Nbr m u v) : Nbr m v u := by
  obtain ⟨x, hl, ht, hs⟩ := h
  obtain ⟨o1, o2, o3, o4, o5, o6, o7, o8⟩ := C.opp x hl
  refine ⟨opposite x, o1, ?_, ?_⟩
  · rw [o6] at hs; simpa using hs
  · rw [(C.opp _ o1).2.2.2.2.2.1, o2, ht]

theorem Nbr.ne {m : Mesh P} (C : Consistent m) {u v : Nat} (h : Nbr m u v) : u ≠ v := by
  obtain ⟨x, hl, ht, hs⟩ := h
  intro e
  exact (C.opp x hl).2.2.2.2.2.2.2 (by rw [hs, e, ht])

/-- What a scan does. -/
theorem scan_spec {m : Mesh P} (C : Consistent m) (keys : List Nat) (skip : Option Nat) (v : Nat) : ∀ (hs : List Nat) (tr : List Nat) (st : List (Nat × Nat)) (n : Nat),
    (∀ h ∈ hs, h ∈ m.vh v) → hs.Nodup → ∃ ps : List (Nat × Nat), scan m keys skip hs tr st n = .ok (ps.map Prod.fst ++ tr, ps ++ st, n + ps.length) ∧
      (ps.map Prod.fst).Nodup ∧ (ps.map Prod.snd).Nodup ∧ (∀ p ∈ ps, p.1 ∈ keys ∧ p.1 ∉ tr ∧ p.2 ∈ hs ∧ m.source p.2 = some p.1 ∧ skip ≠ some (edgeOf p.2)) ∧
      ∀ h ∈ hs, skip ≠ some (edgeOf h) → ∀ s ∈ keys, m.source h = some s → s ∈ ps.map Prod.fst ++ tr := by
  intro hs
  induction hs with
  | nil => intro tr st n _ _; exact ⟨[], by simp [scan], by simp, by simp, by simp, by simp⟩
  | cons h hs ih =>
    intro tr st n hv hnd
    obtain ⟨hh, hnd⟩ := List.nodup_cons.1 hnd
    have hv' : ∀ x ∈ hs, x ∈ m.vh v := fun x hx => hv x (List.mem_cons_of_mem _ hx)
    by_cases hsk : skip = some (edgeOf h)
    · obtain ⟨ps, h1, h2, h2', h3, h4⟩ := ih tr st n hv' hnd
      refine ⟨ps, by rw [scan, if_pos hsk]; exact h1, h2, h2', fun p hp => ?_, fun x hx hxs => ?_⟩
      · obtain ⟨a, b, c, d⟩ := h3 p hp; exact ⟨a, b, List.mem_cons_of_mem _ c, d⟩
      · rcases List.mem_cons.1 hx with rfl | hx
        · exact absurd hsk hxs
        · exact h4 x hx hxs
    · obtain ⟨s, hs', -, -, -, -⟩ := src_some C (hv h (List.mem_cons_self ..))
      by_cases hk : s ∈ keys ∧ s ∉ tr
      · obtain ⟨ps, h1, h2, h2', h3, h4⟩ := ih (s :: tr) ((s, h) :: st) (n + 1) hv' hnd
        refine ⟨ps ++ [(s, h)], ?_, ?_, ?_, ?_, ?_⟩
        · rw [scan, if_neg hsk, hs']
          simp only [hk, not_false_eq_true, and_self, if_true]
          rw [h1]; simp; omega
        · rw [List.map_append, List.nodup_append]
          refine ⟨h2, by simp, ?_⟩
          intro a ha b hb
          simp at hb
          obtain ⟨p, hp, rfl⟩ := List.mem_map.1 ha
          rintro rfl
          exact (h3 p hp).2.1 (by simp [hb])
        · rw [List.map_append, List.nodup_append]
          refine ⟨h2', by simp, ?_⟩
          intro a ha b hb
          simp at hb
          obtain ⟨p, hp, rfl⟩ := List.mem_map.1 ha
          rintro rfl
          exact hh (by rw [← hb]; exact (h3 p hp).2.2.1)
        · intro p hp
          rcases List.mem_append.1 hp with hp | hp
          · obtain ⟨a, b, c, d⟩ := h3 p hp
            exact ⟨a, fun hx => b (List.mem_cons_of_mem _ hx), List.mem_cons_of_mem _ c, d⟩
          · simp at hp; subst hp
            exact ⟨hk.1, hk.2, List.mem_cons_self .., hs', hsk⟩
        · intro x hx hxs t ht hxt
          rcases List.mem_cons.1 hx with rfl | hx
          · rw [hs'] at hxt; cases hxt; simp
          · have := h4 x hx hxs t ht hxt
            simp at this ⊢
            tauto
      · obtain ⟨ps, h1, h2, h2', h3, h4⟩ := ih tr st n hv' hnd
        refine ⟨ps, by rw [scan, if_neg hsk, hs']; simp only [hk, if_false]; exact h1, h2, h2', fun p hp => ?_, fun x hx hxs t ht hxt => ?_⟩
        · obtain ⟨a, b, c, d⟩ := h3 p hp; exact ⟨a, b, List.mem_cons_of_mem _ c, d⟩
        · rcases List.mem_cons.1 hx with rfl | hx
          · rw [hs'] at hxt; cases hxt
            have : s ∈ tr := by by_contra hc; exact hk ⟨ht, hc⟩
            exact List.mem_append_right _ this
          · exact h4 x hx hxs t ht hxt

/-- The invariant of the stack loop: `seg` is the part of the sequence found so far. -/
structure WInv (m : Mesh P) (keys : List Nat) (seed : Nat) (seg tr : List Nat) (st : List (Nat × Nat)) : Prop where
  ne : seed ∈ seg
  nd : (seg ++ st.map Prod.fst).Nodup
  sub : ∀ v ∈ seg ++ st.map Prod.fst, v ∈ keys
  trv : ∀ v, v ∈ tr ↔ v ∈ seg ++ st.map Prod.fst
  cl : ∀ u ∈ seg, ∀ v ∈ keys, Nbr m u v → v ∈ tr
  edge : ∀ p ∈ st, LiveH m p.2 ∧ m.source p.2 = some p.1 ∧ m.target p.2 ∈ seg
  conn : ∀ v ∈ seg ++ st.map Prod.fst, Relation.ReflTransGen (fun a b => b ∈ keys ∧ Nbr m a b) seed v

/-- The order of a path- or cycle-shaped seam. -/
structure OInv (m : Mesh P) (seg : List Nat) (st : List (Nat × Nat)) : Prop where
  chain : seg.IsChain (Nbr m)
  top : ∀ p rest, st = p :: rest → seg.getLast? = some (m.target p.2)
  snd : ∀ p q rest, st = p :: q :: rest → seg.head? = some (m.target q.2)
  two : st.length ≤ 2

theorem pre_flip {off : Nat} {pre seg : List Nat} (h : pre.length = off + 2) : flip off (pre ++ seg) = pre ++ seg.reverse := by
  unfold flip
  rw [← h, List.take_left, List.drop_left]

theorem degree_le {m : Mesh P} (C : Consistent m) {S : List Nat} {v : Nat} {l : List Nat} (hn : l.Nodup) (hl : ∀ x ∈ l, x ∈ S ∧ Nbr m x v) :
    l.length ≤ degree m S v := by
  classical
  have hd : degree m S v = ((m.vh v).filter (fun h => decide (∃ s ∈ S, m.source h = some s))).length := by
    rw [degree, List.countP_eq_length_filter]
  rw [hd]
  have hsub : l ⊆ ((m.vh v).filter (fun h => decide (∃ s ∈ S, m.source h = some s))).map (fun h => (m.source h).getD 0) := by
    intro x hx
    obtain ⟨h1, h2⟩ := hl x hx
    obtain ⟨h, hm, hs⟩ := h2.mem C
    exact List.mem_map.2 ⟨h, List.mem_filter.2 ⟨hm, by simpa using ⟨x, h1, hs⟩⟩, by rw [hs]; rfl⟩
  have := (hn.subperm hsub).length_le
  simpa using this

theorem degree_halfedges {m : Mesh P} {S : List Nat} {v : Nat} {l : List Nat} (hn : l.Nodup) (hl : ∀ h ∈ l, h ∈ m.vh v ∧ ∃ s ∈ S, m.source h = some s) :
    l.length ≤ degree m S v := by
  classical
  have hd : degree m S v = ((m.vh v).filter (fun h => decide (∃ s ∈ S, m.source h = some s))).length := by
    rw [degree, List.countP_eq_length_filter]
  rw [hd]
  refine (hn.subperm ?_).length_le
  intro h hh
  obtain ⟨h1, h2⟩ := hl h hh
  exact List.mem_filter.2 ⟨h1, by simpa using h2⟩

/-- One iteration of the stack loop. -/
theorem winv_step {m : Mesh P} (C : Consistent m) {keys : List Nat} {seed : Nat} {seg tr : List Nat} {v h : Nat} {st : List (Nat × Nat)}
    (I : WInv m keys seed seg tr ((v, h) :: st)) : ∃ ps, scan m keys (some (edgeOf h)) (m.vh v) tr st 0 = .ok (ps.map Prod.fst ++ tr, ps ++ st, ps.length) ∧
      WInv m keys seed (seg ++ [v]) (ps.map Prod.fst ++ tr) (ps ++ st) ∧ (∀ p ∈ ps, m.target p.2 = v) ∧
      (Linear m keys → ps.length ≤ 1) := by
  obtain ⟨ps, h1, h2, h2', h3, h4⟩ := scan_spec C keys (some (edgeOf h)) v (m.vh v) tr st 0 (fun _ h => h) (C.incidence v 0).1
  rw [Nat.zero_add] at h1
  obtain ⟨e1, e2, e3⟩ := I.edge (v, h) (by simp)
  simp only at e1 e2 e3
  obtain ⟨o1, o2, o3, o4, o5, o6, o7, o8⟩ := C.opp h e1
  have hvt : m.target (opposite h) = v := by rw [o6] at e2; simpa using e2
  have hov : opposite h ∈ m.vh v := (C.incidence v _).2.2 ⟨o1, hvt⟩
  have hos : m.source (opposite h) = some (m.target h) := by rw [(C.opp _ o1).2.2.2.2.2.1, o2]
  have hps : ∀ p ∈ ps, m.target p.2 = v ∧ LiveH m p.2 ∧ m.source p.2 = some p.1 ∧ p.1 ∈ keys ∧ p.1 ∉ tr ∧ p.2 ∈ m.vh v ∧ p.2 ≠ opposite h := by
    intro p hp
    obtain ⟨a, b, c, d, e⟩ := h3 p hp
    obtain ⟨hl, ht⟩ := (C.incidence v p.2).2.1 c
    exact ⟨ht, hl, d, a, b, c, fun hc => e (by rw [hc, o5])⟩
  have hmem : ∀ x, x ∈ (seg ++ [v]) ++ (ps ++ st).map Prod.fst ↔ x ∈ ps.map Prod.fst ∨ x ∈ seg ++ ((v, h) :: st).map Prod.fst := by
    intro x; simp only [List.mem_append, List.map_append, List.map_cons, List.mem_cons, List.mem_singleton]; tauto
  refine ⟨ps, h1, ⟨List.mem_append_left _ I.ne, ?_, ?_, ?_, ?_, ?_, ?_⟩, fun p hp => (hps p hp).1, ?_⟩
  · have hperm : ((seg ++ [v]) ++ (ps ++ st).map Prod.fst).Perm (ps.map Prod.fst ++ (seg ++ ((v, h) :: st).map Prod.fst)) := by
      simp only [List.map_append, List.map_cons]
      have : seg ++ [v] ++ (ps.map Prod.fst ++ st.map Prod.fst) = (seg ++ [v]) ++ (ps.map Prod.fst ++ st.map Prod.fst) := rfl
      rw [show seg ++ v :: st.map Prod.fst = (seg ++ [v]) ++ st.map Prod.fst by simp]
      rw [← List.append_assoc, ← List.append_assoc (ps.map Prod.fst)]
      exact (List.perm_append_comm).append_right _
    rw [hperm.nodup_iff, List.nodup_append]
    refine ⟨h2, I.nd, ?_⟩
    intro a ha b hb hab
    obtain ⟨p, hp, rfl⟩ := List.mem_map.1 ha
    exact (h3 p hp).2.1 ((I.trv _).2 (hab ▸ hb))
  · intro x hx
    rcases (hmem x).1 hx with hx | hx
    · obtain ⟨p, hp, rfl⟩ := List.mem_map.1 hx; exact (h3 p hp).1
    · exact I.sub x hx
  · intro x
    rw [hmem x, List.mem_append, I.trv x]
  · intro u hu w hw hn
    rcases List.mem_append.1 hu with hu | hu
    · exact List.mem_append_right _ (I.cl u hu w hw hn)
    · simp at hu; subst hu
      obtain ⟨x, hx, hxs⟩ := (hn.symm C).mem C
      by_cases hsk : edgeOf x = edgeOf h
      · rcases same_edge hsk with rfl | rfl
        · exfalso
          have := (C.incidence u x).2.1 hx
          exact o8 (by rw [this.2]; exact e2)
        · rw [hos] at hxs; cases hxs
          exact List.mem_append_right _ ((I.trv _).2 (List.mem_append_left _ e3))
      · exact h4 x hx (by simpa using fun hc => hsk hc.symm) w hw hxs
  · intro p hp
    rcases List.mem_append.1 hp with hp | hp
    · obtain ⟨a, b, c, -⟩ := hps p hp
      exact ⟨b, c, by rw [a]; simp⟩
    · obtain ⟨a, b, c⟩ := I.edge p (List.mem_cons_of_mem _ hp)
      exact ⟨a, b, List.mem_append_left _ c⟩
  · intro x hx
    rcases (hmem x).1 hx with hx | hx
    · obtain ⟨p, hp, rfl⟩ := List.mem_map.1 hx
      obtain ⟨a, b, c, d, -⟩ := hps p hp
      refine (I.conn v (by simp)).tail ⟨d, ?_⟩
      exact Nbr.symm C ⟨p.2, b, a, c⟩
    · exact I.conn x hx
  · intro L
    have hv : v ∈ keys := I.sub v (by simp)
    have := degree_halfedges (m := m) (S := keys) (v := v) (l := opposite h :: ps.map Prod.snd) (by
      rw [List.nodup_cons]
      refine ⟨?_, h2'⟩
      intro hc
      obtain ⟨p, hp, e⟩ := List.mem_map.1 hc
      exact (hps p hp).2.2.2.2.2.2 e) (by
      intro x hx
      rcases List.mem_cons.1 hx with rfl | hx
      · exact ⟨hov, _, I.sub _ (List.mem_append_left _ e3), hos⟩
      · obtain ⟨p, hp, rfl⟩ := List.mem_map.1 hx
        exact ⟨(hps p hp).2.2.2.2.2.1, p.1, (hps p hp).2.2.2.1, (hps p hp).2.2.1⟩)
    simp at this
    have := (L v hv).1
    omega

theorem winv_perm {m : Mesh P} {keys : List Nat} {seed : Nat} {seg seg' tr : List Nat} {st : List (Nat × Nat)} (hp : seg.Perm seg')
    (I : WInv m keys seed seg tr st) : WInv m keys seed seg' tr st := by
  have hm : ∀ x, x ∈ seg' ++ st.map Prod.fst ↔ x ∈ seg ++ st.map Prod.fst := by
    intro x; simp only [List.mem_append, hp.mem_iff]
  exact ⟨hp.mem_iff.1 I.ne, ((hp.append_right _).nodup_iff).1 I.nd, fun v hv => I.sub v ((hm v).1 hv), fun v => by rw [I.trv, hm],
    fun u hu => I.cl u (hp.mem_iff.2 hu), fun p hp' => by
      obtain ⟨a, b, c⟩ := I.edge p hp'; exact ⟨a, b, hp.mem_iff.1 c⟩, fun v hv => I.conn v ((hm v).1 hv)⟩

theorem chain_snoc {R : Nat → Nat → Prop} {l : List Nat} {x : Nat} (h : l.IsChain R) (hl : ∀ y, l.getLast? = some y → R y x) : (l ++ [x]).IsChain R := by
  rw [List.isChain_append]
  refine ⟨h, by simp, ?_⟩
  intro a ha b hb
  simp at hb; subst hb
  exact hl a ha

theorem chain_rev {R : Nat → Nat → Prop} (hs : ∀ a b, R a b → R b a) {l : List Nat} (h : l.IsChain R) : l.reverse.IsChain R := by
  rw [List.isChain_reverse]
  exact h.imp (fun a b hab => hs _ _ hab)

/-- The stack loop. -/
theorem walk_spec {m : Mesh P} (C : Consistent m) {keys : List Nat} (hk : keys.Nodup) {seed off : Nat} {pre : List Nat} (hp : pre.length = off + 2) :
    ∀ (fuel : Nat) (seg tr : List Nat) (st : List (Nat × Nat)), WInv m keys seed seg tr st → st ≠ [] → keys.length + 2 ≤ fuel + seg.length →
      ∃ seg' tr', walk m keys off fuel (pre ++ seg) tr st = .ok (pre ++ seg', tr') ∧ WInv m keys seed seg' tr' [] ∧
        (Linear m keys → OInv m seg st → seg'.IsChain (Nbr m) ∧ (st.length = 1 → seg'.head? = seg.head?)) := by
  intro fuel
  induction fuel with
  | zero =>
    intro seg tr st I hne hf
    have : (seg ++ st.map Prod.fst).length ≤ keys.length := (I.nd.subperm (fun x hx => I.sub x hx)).length_le
    simp at this; omega
  | succ fuel ih =>
    intro seg tr st I hne hf
    obtain ⟨⟨v, h⟩, st, rfl⟩ := List.exists_cons_of_ne_nil hne
    obtain ⟨ps, h1, I', htg, hlin⟩ := winv_step C I
    rw [walk]
    simp only [h1]
    by_cases he : ps ++ st = []
    · have hps : ps = [] ∧ st = [] := by simpa using he
      rw [if_pos he]
      simp only [hps.1, hps.2, List.nil_append, ne_eq, not_true_eq_false, and_false, if_false, List.append_assoc]
      rw [he] at I'
      simp only [hps.1] at I'
      refine ⟨seg ++ [v], _, rfl, I', fun L O => ⟨chain_snoc O.chain (fun y hy => ?_), fun _ => ?_⟩⟩
      · have := O.top _ _ rfl
        rw [hy] at this; cases this
        obtain ⟨e1, e2, e3⟩ := I.edge (v, h) (by simp)
        exact Nbr.symm C ⟨h, e1, rfl, e2⟩
      · cases seg with
        | nil => exact absurd I.ne (by simp)
        | cons a l => rfl
    · rw [if_neg he]
      have hOtop : OInv m seg ((v, h) :: st) → (seg ++ [v]).IsChain (Nbr m) := by
        intro O
        refine chain_snoc O.chain (fun y hy => ?_)
        have := O.top _ _ rfl
        rw [hy] at this; cases this
        obtain ⟨e1, e2, e3⟩ := I.edge (v, h) (by simp)
        exact Nbr.symm C ⟨h, e1, rfl, e2⟩
      have hhead : (seg ++ [v]).head? = seg.head? := by
        cases seg with
        | nil => exact absurd I.ne (by simp)
        | cons a l => rfl
      by_cases hz : ps.length = 0
      · have hps : ps = [] := List.length_eq_zero_iff.1 hz
        subst hps
        simp only [List.length_nil, ne_eq, true_and, List.nil_append] at he ⊢
        rw [if_pos he, List.append_assoc, pre_flip hp]
        obtain ⟨seg', tr', e, J, K⟩ := ih (seg ++ [v]).reverse tr st (winv_perm (List.reverse_perm _).symm (by simpa using I')) he (by simp; omega)
        refine ⟨seg', tr', e, J, fun L O => ?_⟩
        have hst : ∃ q, st = [q] := by
          have := O.two
          match st, he, this with
          | [q], _, _ => exact ⟨q, rfl⟩
          | q :: r :: l, _, h => simp at h
        obtain ⟨q, rfl⟩ := hst
        have K' := K L ⟨chain_rev (fun a b h => Nbr.symm C h) (hOtop O), ?_, ?_, by simp⟩
        · exact ⟨K'.1, fun hc => by simp at hc⟩
        · intro p rest hpr
          simp at hpr
          obtain ⟨rfl, -⟩ := hpr
          rw [List.getLast?_reverse, hhead]
          exact O.snd _ _ _ rfl
        · intro p q' rest hpr; simp at hpr
      · rw [if_neg (by tauto), List.append_assoc]
        obtain ⟨seg', tr', e, J, K⟩ := ih (seg ++ [v]) _ _ I' he (by simp; omega)
        refine ⟨seg', tr', e, J, fun L O => ?_⟩
        have hone : ∃ p, ps = [p] := by
          have := hlin L
          match ps, hz, this with
          | [p], _, _ => exact ⟨p, rfl⟩
          | p :: r :: l, _, h => simp at h
        obtain ⟨p, rfl⟩ := hone
        have K' := K L ⟨hOtop O, ?_, ?_, ?_⟩
        · refine ⟨K'.1, fun hc => ?_⟩
          simp at hc
          rw [K'.2 (by simp [hc]), hhead]
        · intro p' rest hpr
          simp at hpr
          obtain ⟨rfl, -⟩ := hpr
          simp [htg p (by simp)]
        · intro p' q rest hpr
          simp at hpr
          obtain ⟨rfl, rfl⟩ := hpr
          rw [hhead]
          exact O.snd _ _ _ rfl
        · have := O.two; simpa using this

end Mcut.Seam
