import Verif.Spec.C34
import Verif.Lemmas.C33
import Verif.Lemmas.C32
import Verif.Props.C33

/-! Helper lemmas for C34. -/
namespace Mcut.Preproc
open Mcut.Hmesh

/-- A symmetric graph on the vertices below `n`. -/
structure Graph (nb : Nat → List Nat) (n : Nat) : Prop where
  lt : ∀ v, v < n → ∀ w ∈ nb v, w < n
  symm : ∀ v w, v < n → w ∈ nb v → v ∈ nb w

/-- Paths. -/
def Path (nb : Nat → List Nat) : Nat → Nat → Prop := Relation.EqvGen (fun u v => v ∈ nb u)

/-- Loop invariant of the traversal from `root`. -/
structure BI (nb : Nat → List Nat) (n k root : Nat) (base vis : Nat → Option Nat) (queue : List Nat) : Prop where
  keep : ∀ v i, base v = some i → vis v = some i
  ids : ∀ v i, vis v = some i → base v = some i ∨ (i = k ∧ v < n ∧ Path nb root v ∧ base v = none)
  front : ∀ v, vis v = some k → ∀ w ∈ nb v, vis w ≠ none ∨ w ∈ queue
  queue : ∀ w ∈ queue, w < n ∧ Path nb root w

theorem push_spec (vis : Nat → Option Nat) : ∀ (l : List Nat) (q : List Nat) (qd : Nat → Bool),
    let r := l.foldl (fun (s : List Nat × (Nat → Bool)) w => if vis w = none ∨ s.2 w = false then (s.1 ++ [w], upd s.2 w true) else s) (q, qd)
    (∀ w ∈ q, w ∈ r.1) ∧ (∀ w ∈ r.1, w ∈ q ∨ w ∈ l) ∧ (∀ w ∈ l, vis w = none → w ∈ r.1) := by
  intro l
  induction l with
  | nil => intro q qd; simp
  | cons x l ih =>
    intro q qd
    simp only [List.foldl_cons]
    by_cases h : vis x = none ∨ qd x = false
    · rw [if_pos h]
      obtain ⟨h1, h2, h3⟩ := ih (q ++ [x]) (upd qd x true)
      refine ⟨fun w hw => h1 w (by simp [hw]), fun w hw => ?_, fun w hw hn => ?_⟩
      · rcases h2 w hw with h | h
        · rcases List.mem_append.1 h with h | h
          · exact Or.inl h
          · right; simp at h; simp [h]
        · right; simp [h]
      · rcases List.mem_cons.1 hw with rfl | hw
        · exact h1 _ (by simp)
        · exact h3 w hw hn
    · rw [if_neg h]
      obtain ⟨h1, h2, h3⟩ := ih q qd
      refine ⟨h1, fun w hw => ?_, fun w hw hn => ?_⟩
      · rcases h2 w hw with h | h
        · exact Or.inl h
        · right; simp [h]
      · rcases List.mem_cons.1 hw with rfl | hw
        · exact absurd (Or.inl hn) h
        · exact h3 w hw hn

theorem bfs_spec {nb : Nat → List Nat} {n : Nat} (G : Graph nb n) (k root : Nat) (base : Nat → Option Nat) (hk : ∀ v i, base v = some i → i < k) :
    ∀ (vis : Nat → Option Nat) (queued : Nat → Bool) (queue : List Nat), BI nb n k root base vis queue →
    BI nb n k root base (bfs nb n k vis queued queue).1 [] ∧ (∀ v i, vis v = some i → (bfs nb n k vis queued queue).1 v = some i) := by
  apply bfs.induct nb n k (motive := fun vis queued queue => BI nb n k root base vis queue →
    BI nb n k root base (bfs nb n k vis queued queue).1 [] ∧ (∀ v i, vis v = some i → (bfs nb n k vis queued queue).1 v = some i))
  · intro vis queued I
    rw [bfs]; exact ⟨I, fun _ _ h => h⟩
  · intro vis queued v queue hv vis' push ih I
    have hq := I.queue v (by simp)
    have hbase : base v = none := by
      cases h : base v with
      | none => rfl
      | some i => rw [I.keep v i h] at hv; cases hv.2
    obtain ⟨p1, p2, p3⟩ := push_spec vis' (nb v) queue queued
    have hpush : push = (nb v).foldl (fun (s : List Nat × (Nat → Bool)) w => if vis' w = none ∨ s.2 w = false then (s.1 ++ [w], upd s.2 w true) else s) (queue, queued) := by
      simp only [push, dite_eq_ite]
    rw [← hpush] at p1 p2 p3
    have hmono : ∀ w i, vis w = some i → vis' w = some i := by
      intro w i h
      by_cases hw : w = v
      · subst hw; rw [hv.2] at h; cases h
      · simp only [vis', upd_other _ _ _ _ hw]; exact h
    have I' : BI nb n k root base vis' push.1 := by
      refine ⟨fun w i h => hmono w i (I.keep w i h), ?_, ?_, ?_⟩
      · intro w i h
        by_cases hw : w = v
        · subst hw
          simp only [vis', upd_same, Option.some.injEq] at h
          exact Or.inr ⟨h.symm, hv.1, hq.2, hbase⟩
        · simp only [vis', upd_other _ _ _ _ hw] at h
          exact I.ids w i h
      · intro u hu w hw
        by_cases huv : u = v
        · subst huv
          by_cases h : vis' w = none
          · exact Or.inr (p3 w hw h)
          · exact Or.inl h
        · simp only [vis', upd_other _ _ _ _ huv] at hu
          rcases I.front u hu w hw with h | h
          · obtain ⟨i, hi⟩ := Option.ne_none_iff_exists'.1 h
            left; rw [hmono w i hi]; simp
          · rcases List.mem_cons.1 h with rfl | h
            · left; simp [vis']
            · exact Or.inr (p1 w h)
      · intro w hw
        rcases p2 w hw with h | h
        · exact I.queue w (by simp [h])
        · exact ⟨G.lt v hv.1 w h, hq.2.trans _ _ _ (.rel _ _ h)⟩
    have R := ih I'
    have e : bfs nb n k vis queued (v :: queue) = bfs nb n k vis' push.2 push.1 := by
      rw [bfs, dif_pos hv, hpush]
    rw [e]
    exact ⟨R.1, fun w i h => R.2 w i (hmono w i h)⟩
  · intro vis queued v queue hv ih I
    have hq := I.queue v (by simp)
    have hvn : vis v ≠ none := fun h => hv ⟨hq.1, h⟩
    have I' : BI nb n k root base vis queue := by
      refine ⟨I.keep, I.ids, ?_, fun w hw => I.queue w (by simp [hw])⟩
      intro u hu w hw
      rcases I.front u hu w hw with h | h
      · exact Or.inl h
      · rcases List.mem_cons.1 h with rfl | h
        · exact Or.inl hvn
        · exact Or.inr h
    have e : bfs nb n k vis queued (v :: queue) = bfs nb n k vis queued queue := by
      rw [bfs, dif_neg hv]
    rw [e]; exact ih I'

/-- What is known of the components found so far. -/
structure CI (nb : Nat → List Nat) (n : Nat) (comp : Nat → Option Nat) (num : Nat) : Prop where
  ids : ∀ v i, comp v = some i → i < num ∧ v < n
  closed : ∀ v i, comp v = some i → ∀ w ∈ nb v, comp w = some i
  path : ∀ u v i, comp u = some i → comp v = some i → Path nb u v
  hit : ∀ i, i < num → ∃ v, comp v = some i

theorem CI.next {nb : Nat → List Nat} {n : Nat} (G : Graph nb n) {comp : Nat → Option Nat} {num : Nat} (C : CI nb n comp num) (u : Nat) (hu : u < n)
    (hn : comp u = none) (queued : Nat → Bool) :
    CI nb n (bfs nb n num (upd comp u (some num)) queued (nb u)).1 (num + 1) ∧
    (bfs nb n num (upd comp u (some num)) queued (nb u)).1 u = some num ∧
    ∀ v i, comp v = some i → (bfs nb n num (upd comp u (some num)) queued (nb u)).1 v = some i := by
  have I : BI nb n num u comp (upd comp u (some num)) (nb u) := by
    refine ⟨?_, ?_, ?_, ?_⟩
    · intro v i h
      by_cases hv : v = u
      · subst hv; rw [hn] at h; cases h
      · rw [upd_other _ _ _ _ hv]; exact h
    · intro v i h
      by_cases hv : v = u
      · subst hv
        rw [upd_same, Option.some.injEq] at h
        exact Or.inr ⟨h.symm, hu, .refl _, hn⟩
      · rw [upd_other _ _ _ _ hv] at h; exact Or.inl h
    · intro v h w hw
      by_cases hv : v = u
      · subst hv; exact Or.inr hw
      · rw [upd_other _ _ _ _ hv] at h
        have := (C.ids v num h).1; omega
    · intro w hw; exact ⟨G.lt u hu w hw, .rel _ _ hw⟩
  obtain ⟨F, M⟩ := bfs_spec G num u comp (fun v i h => (C.ids v i h).1) _ queued _ I
  generalize (bfs nb n num (upd comp u (some num)) queued (nb u)).1 = r at *
  have hu' : r u = some num := M u num (upd_same _ _ _)
  refine ⟨⟨?_, ?_, ?_, ?_⟩, hu', fun v i h => F.keep v i h⟩
  · intro v i h
    rcases F.ids v i h with h | h
    · have := C.ids v i h; omega
    · omega
  · intro v i h w hw
    rcases F.ids v i h with h' | ⟨rfl, hv, hp, hb⟩
    · exact F.keep w i (C.closed v i h' w hw)
    · rcases F.front v h w hw with h1 | h1
      · obtain ⟨j, hj⟩ := Option.ne_none_iff_exists'.1 h1
        rcases F.ids w j hj with h2 | h2
        · have := C.closed w j h2 v (G.symm v w hv hw)
          rw [hb] at this; cases this
        · rw [hj, h2.1]
      · simp at h1
  · intro v w i hv hw
    rcases F.ids v i hv with h1 | h1
    · rcases F.ids w i hw with h2 | h2
      · exact C.path v w i h1 h2
      · have := (C.ids v i h1).1; omega
    · rcases F.ids w i hw with h2 | h2
      · have := (C.ids w i h2).1; omega
      · exact (h1.2.2.1.symm).trans _ _ _ h2.2.2.1
  · intro i hi
    by_cases h : i = num
    · exact ⟨u, by rw [h]; exact hu'⟩
    · obtain ⟨v, hv⟩ := C.hit i (by omega)
      exact ⟨v, F.keep v i hv⟩

/-- The loop over the vertices. -/
theorem find_spec {P : Type} (m : Mesh P) (G : Graph (neighbours m) m.numVertices) : ∀ (l : List Nat) (s : CCs), (∀ u ∈ l, u < m.numVertices) →
    CI (neighbours m) m.numVertices s.comp s.num →
    let r := l.foldl (fun (s : CCs) u =>
      if s.comp u = none then
        let vis := upd s.comp u (some s.num)
        let ns := neighbours m u
        let q := ns.foldl (fun q w => upd q w true) (upd s.queued u true)
        let r := bfs (neighbours m) m.numVertices s.num vis q ns
        ⟨r.1, r.2, s.num + 1⟩
      else s) s
    CI (neighbours m) m.numVertices r.comp r.num ∧ (∀ u ∈ l, r.comp u ≠ none) ∧ ∀ v i, s.comp v = some i → r.comp v = some i := by
  intro l
  induction l with
  | nil => intro s _ C; exact ⟨C, by simp, fun _ _ h => h⟩
  | cons u l ih =>
    intro s hl C
    simp only [List.foldl_cons]
    by_cases h : s.comp u = none
    · rw [if_pos h]
      obtain ⟨C', h1, h2⟩ := C.next G u (hl u (by simp)) h ((neighbours m u).foldl (fun q w => upd q w true) (upd s.queued u true))
      obtain ⟨r1, r2, r3⟩ := ih ⟨_, (bfs (neighbours m) m.numVertices s.num (upd s.comp u (some s.num)) ((neighbours m u).foldl (fun q w => upd q w true) (upd s.queued u true)) (neighbours m u)).2, s.num + 1⟩ (fun w hw => hl w (by simp [hw])) C'
      refine ⟨r1, ?_, fun v i hv => r3 v i (h2 v i hv)⟩
      intro w hw
      rcases List.mem_cons.1 hw with rfl | hw
      · rw [r3 _ _ h1]; simp
      · exact r2 w hw
    · rw [if_neg h]
      obtain ⟨r1, r2, r3⟩ := ih s (fun w hw => hl w (by simp [hw])) C
      refine ⟨r1, ?_, r3⟩
      intro w hw
      rcases List.mem_cons.1 hw with rfl | hw
      · obtain ⟨i, hi⟩ := Option.ne_none_iff_exists'.1 h
        rw [r3 _ _ hi]; simp
      · exact r2 w hw

variable {P : Type}

theorem mem_neighbours {m : Mesh P} (W : WF m) (v w : Nat) : w ∈ neighbours m v ↔ MeshEdge m w v := by
  unfold neighbours Mesh.verticesAroundVertex
  rw [List.mem_filterMap]
  constructor
  · rintro ⟨x, hx, rfl⟩
    obtain ⟨h, hh, he⟩ := List.mem_map.1 hx
    have := (W.vh_mem v h).1 hh
    exact ⟨h, this.1, he, this.2⟩
  · rintro ⟨h, hl, hs, ht⟩
    exact ⟨some w, List.mem_map.2 ⟨h, (W.vh_mem v h).2 ⟨hl, ht⟩, hs⟩, rfl⟩

theorem edge_symm {m : Mesh P} (W : WF m) {u v : Nat} (h : MeshEdge m u v) : MeshEdge m v u := by
  obtain ⟨x, hl, hs, ht⟩ := h
  refine ⟨opposite x, W.opp_live hl, ?_, ?_⟩
  · rw [W.source (W.opp_live hl), opposite_opposite]; exact congrArg some ht
  · rw [W.source hl] at hs; injection hs

theorem mesh_graph {m : Mesh P} (W : WF m) (hv : m.vRem = []) : Graph (neighbours m) m.numVertices := by
  have hn : m.numVertices = m.nV := by simp [Mesh.numVertices, hv]
  constructor
  · intro v _ w hw
    obtain ⟨x, hl, hs, ht⟩ := edge_symm W ((mem_neighbours W v w).1 hw)
    have := (W.half x hl).2.2.1
    unfold LiveV Live at this
    rw [hn]
    have ht' : (m.hd x).t = w := ht
    rw [ht'] at this; exact this.1
  · intro v w _ hw
    rw [mem_neighbours W] at hw ⊢
    exact edge_symm W hw

theorem path_iff {m : Mesh P} (W : WF m) (u v : Nat) : Path (neighbours m) u v ↔ Connected m u v := by
  have key : ∀ u v, (v ∈ neighbours m u) ↔ MeshEdge m u v := by
    intro u v
    rw [mem_neighbours W]
    exact ⟨edge_symm W, edge_symm W⟩
  unfold Path Connected
  have : (fun u v => v ∈ neighbours m u) = MeshEdge m := by
    funext u v; exact propext (key u v)
  rw [this]

theorem closed_path {nb : Nat → List Nat} {n : Nat} (G : Graph nb n) {comp : Nat → Option Nat} {num : Nat} (C : CI nb n comp num)
    (hall : ∀ v, v < n → comp v ≠ none) (hlt : ∀ v w, w ∈ nb v → v < n ∧ w < n) {u v : Nat} (h : Path nb u v) : comp u = comp v := by
  induction h with
  | rel x y h =>
    obtain ⟨i, hi⟩ := Option.ne_none_iff_exists'.1 (hall x (hlt x y h).1)
    rw [hi, C.closed x i hi y h]
  | refl => rfl
  | symm _ _ _ ih => exact ih.symm
  | trans _ _ _ _ _ ih1 ih2 => exact ih1.trans ih2

end Mcut.Preproc
