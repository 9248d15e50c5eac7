import Verif.Lemmas.C86Rim

/-! # Erasing the triangles outside -/
namespace Mcut.Cdt
open Mcut.Geom
variable {K : Type} [Field K] [LinearOrder K] [IsStrictOrderedRing K]
variable {pos : Nat → V2 K} {N : Nat} {s : St}

theorem filterMap_at {A B : Type} (f : A → Option B) : ∀ (l : List A), (∀ a ∈ l, ∃ b, f a = some b) → ∀ j : Nat, (l.filterMap f)[j]? = (l[j]?).bind f
  | [], _, j => by simp
  | a :: l, h, j => by
    obtain ⟨b, hb⟩ := h a (by simp)
    rw [List.filterMap_cons_some hb]
    cases j with
    | zero => simp [hb]
    | succ j => simpa using filterMap_at f l (fun a ha => h a (by simp [ha])) j

theorem filterMap_len {A B : Type} (f : A → Option B) : ∀ (l : List A), (∀ a ∈ l, ∃ b, f a = some b) → (l.filterMap f).length = l.length
  | [], _ => rfl
  | a :: l, h => by
    obtain ⟨b, hb⟩ := h a (by simp)
    rw [List.filterMap_cons_some hb]
    simp [filterMap_len f l (fun a ha => h a (by simp [ha]))]

theorem mem_keptOf {r : List Nat} {len k : Nat} : k ∈ keptOf r len ↔ k < len ∧ k ∉ r := by
  unfold keptOf
  rw [List.mem_filter, List.mem_range]
  simp

theorem keptOf_sorted (r : List Nat) (len : Nat) : (keptOf r len).Pairwise (· < ·) := by
  unfold keptOf
  exact List.Pairwise.filter _ List.pairwise_lt_range

theorem keptOf_nodup (r : List Nat) (len : Nat) : (keptOf r len).Nodup := List.Nodup.filter _ List.nodup_range

theorem keptOf_length {r : List Nat} {len : Nat} (nd : r.Nodup) (hr : ∀ k ∈ r, k < len) : (keptOf r len).length = len - r.length := by
  have h : (keptOf r len ++ r).Perm (List.range len) := by
    apply (List.perm_ext_iff_of_nodup ?_ List.nodup_range).2
    · intro k
      rw [List.mem_append, mem_keptOf, List.mem_range]
      constructor
      · rintro (h | h); exacts [h.1, hr k h]
      · intro h
        by_cases hk : k ∈ r
        · exact .inr hk
        · exact .inl ⟨h, hk⟩
    · refine List.nodup_append.2 ⟨keptOf_nodup r len, nd, ?_⟩
      rintro a ha b hb rfl
      exact (mem_keptOf.1 ha).2 hb
  have := h.length_eq
  simp only [List.length_append, List.length_range] at this
  omega

/-- The triangles after the removal. -/
theorem removeTris_get {r : List Nat} {ts : List Tri} (hne : r ≠ []) (nd : r.Nodup) (hr : ∀ k ∈ r, k < ts.length) :
    (removeTris r ts).length = (keptOf r ts.length).length ∧
    ∀ j : Nat, (removeTris r ts)[j]? = ((keptOf r ts.length)[j]?).bind (fun k => (ts[k]?).map (fun t : Tri => (⟨t.v, fun i => renumber r (keptOf r ts.length) (t.n i)⟩ : Tri))) := by
  obtain ⟨kept, hk⟩ : ∃ kept, kept = keptOf r ts.length := ⟨_, rfl⟩
  have all : ∀ k ∈ kept, ∃ t, ts[k]? = some t := by
    intro k h
    rw [hk] at h
    exact ⟨_, List.getElem?_eq_getElem (mem_keptOf.1 h).1⟩
  have hl : (kept.filterMap (ts[·]?)).length = kept.length := filterMap_len _ kept all
  have e : removeTris r ts = (kept.filterMap (ts[·]?)).map (fun t => ⟨t.v, fun i => renumber r kept (t.n i)⟩) := by
    unfold removeTris
    rw [if_neg hne, ← hk]
    dsimp only
    have : ts.length - r.length = (kept.filterMap (ts[·]?)).length := by rw [hl, hk, keptOf_length nd hr]
    rw [this, List.take_left]
  rw [e, ← hk]
  refine ⟨by rw [List.length_map, hl], ?_⟩
  intro j
  rw [List.getElem?_map, filterMap_at _ kept all j]
  cases kept[j]? with
  | none => rfl
  | some k => rfl

theorem renumber_none {r kept : List Nat} : renumber r kept none = none := rfl

theorem edge_eq {a b c d : Nat} : edge a b = edge c d ↔ (a = c ∧ b = d) ∨ (a = d ∧ b = c) := by
  unfold edge
  split <;> split <;> simp only [Prod.mk.injEq] <;> omega

theorem edge_sub {e : Nat × Nat} (h : 3 ≤ e.1 ∧ e.1 < e.2) (a b : Nat) : edge (e.1 - 3) (e.2 - 3) = edge a b ↔ e = edge (a + 3) (b + 3) := by
  obtain ⟨p, q⟩ := e
  dsimp only at h ⊢
  have : (p, q) = edge p q := by unfold edge; rw [if_pos h.2]
  rw [this, edge_eq, edge_eq]
  omega

/-- What `finalise` gives. -/
theorem finalise_spec (h : Placed pos N) (T : Triangulation pos N s) {fixed : List (Nat × Nat)} (hf : FixedEdges N fixed) {seed : Nat} (hs : Corner s.tris seed 0) {r : List Nat} (nd : r.Nodup)
    (hr : ∀ k, k ∈ r ↔ Relation.ReflTransGen (Open fixed s.tris) seed k) :
    ∃ d, finalise r s fixed = some d ∧ Erased pos N fixed s (keptOf r s.tris.length) d ∧ d.vt = [] := by
  have m := T.mutual
  have hf' : ∀ e ∈ fixed, 3 ≤ e.1 ∧ 3 ≤ e.2 := fun e he => by have := hf e he; omega
  have out := h.outside_iff T hf' hs
  have hro : ∀ k, k ∈ r ↔ Outside fixed s.tris k := fun k => (hr k).trans (out k).symm
  have valid : ∀ k k', Open fixed s.tris k k' → k' < s.tris.length := by
    rintro k k' ⟨t, i, e, hn, -⟩
    obtain ⟨t', j, e', -⟩ := T.neighbours k k' t i e hn
    exact (List.getElem?_eq_some_iff.1 e').1
  have hlt : ∀ k ∈ r, k < s.tris.length := by
    intro k hk
    rcases Relation.ReflTransGen.cases_tail ((hr k).1 hk) with rfl | ⟨k', -, ho⟩
    · exact hs.index
    · exact valid _ _ ho
  have hne : r ≠ [] := fun e => by have := (hr seed).2 .refl; rw [e] at this; cases this
  obtain ⟨kept, hk⟩ : ∃ kept, kept = keptOf r s.tris.length := ⟨_, rfl⟩
  obtain ⟨hlen, hget⟩ := removeTris_get hne nd hlt
  rw [← hk] at hlen hget
  have mk : ∀ k, k ∈ kept ↔ k < s.tris.length ∧ ¬Outside fixed s.tris k := by intro k; rw [hk, mem_keptOf, hro]
  have ndk : kept.Nodup := by rw [hk]; exact keptOf_nodup _ _
  -- the corners of what is left
  have big : ∀ (k : Nat) (t : Tri), k ∈ kept → s.tris[k]? = some t → ∀ i, 3 ≤ t.v i := by
    intro k t hk' e i
    by_contra hlt3
    exact ((mk k).1 hk').2 ⟨k, t, i, e, by omega, .refl⟩
  have hsome : finalise r s fixed = some ⟨(removeTris r s.tris).map (fun t => ⟨fun i => t.v i - 3, t.n⟩), fixed.map (fun e => edge (e.1 - 3) (e.2 - 3)), []⟩ := by
    unfold finalise
    dsimp only
    rw [if_pos, if_neg hne]
    rw [Bool.and_eq_true, List.all_eq_true, List.all_eq_true]
    constructor
    · intro e he
      have := hf' e he
      simp [this.1, this.2]
    · intro t ht
      obtain ⟨j, hj⟩ := List.mem_iff_getElem?.1 ht
      rw [hget j] at hj
      obtain ⟨k, hk1, hk2⟩ := Option.bind_eq_some_iff.1 hj
      obtain ⟨t', ht', rfl⟩ := Option.map_eq_some_iff.1 hk2
      have := big k t' (List.mem_of_getElem? hk1) ht'
      simp [this 0, this 1, this 2]
  obtain ⟨d, hd⟩ : ∃ d : Done, d = ⟨(removeTris r s.tris).map (fun t => ⟨fun i => t.v i - 3, t.n⟩), fixed.map (fun e => edge (e.1 - 3) (e.2 - 3)), []⟩ := ⟨_, rfl⟩
  rw [← hd] at hsome
  refine ⟨d, hsome, ?_, by rw [hd]⟩
  rw [← hk]
  have dt : ∀ (j : Nat) (u : Tri), d.tris[j]? = some u ↔ ∃ k t, kept[j]? = some k ∧ s.tris[k]? = some t ∧ u = ⟨fun i => t.v i - 3, fun i => renumber r kept (t.n i)⟩ := by
    intro j u
    have : d.tris[j]? = ((removeTris r s.tris)[j]?).map (fun t => ⟨fun i => t.v i - 3, t.n⟩) := by rw [hd]; dsimp only; rw [List.getElem?_map]
    rw [this, hget j]
    constructor
    · intro h
      obtain ⟨t', h1, rfl⟩ := Option.map_eq_some_iff.1 h
      obtain ⟨k, h2, h3⟩ := Option.bind_eq_some_iff.1 h1
      obtain ⟨t, h4, rfl⟩ := Option.map_eq_some_iff.1 h3
      exact ⟨k, t, h2, h4, rfl⟩
    · rintro ⟨k, t, h1, h2, rfl⟩
      rw [h1, Option.bind_some, h2]; rfl
  have corners : ∀ (j k : Nat) (t u : Tri), kept[j]? = some k → s.tris[k]? = some t → d.tris[j]? = some u → ∀ i, t.v i = u.v i + 3 := by
    intro j k t u h1 h2 h3 i
    obtain ⟨k', t', h1', h2', rfl⟩ := (dt j u).1 h3
    rw [h1] at h1'; cases Option.some.inj h1'
    rw [h2] at h2'; cases Option.some.inj h2'
    have := big k t (List.mem_of_getElem? h1) h2 i
    dsimp only; omega
  have isKept : ∀ (k k' : Nat) (t : Tri) (i : Fin 3), s.tris[k]? = some t → t.n i = some k' → k' ∉ r → k' ∈ kept := by
    intro k k' t i e hn hnr
    obtain ⟨t', j, e', -⟩ := T.neighbours k k' t i e hn
    rw [hk, mem_keptOf]
    exact ⟨(List.getElem?_eq_some_iff.1 e').1, hnr⟩
  have across : ∀ (j k : Nat) (t u : Tri), kept[j]? = some k → s.tris[k]? = some t → d.tris[j]? = some u →
      ∀ i, (∀ j', u.n i = some j' ↔ ∃ k', kept[j']? = some k' ∧ t.n i = some k') ∧ (u.n i = none ↔ ∀ k' ∈ kept, t.n i ≠ some k') := by
    intro j k t u h1 h2 h3 i
    obtain ⟨k', t', h1', h2', rfl⟩ := (dt j u).1 h3
    rw [h1] at h1'; cases Option.some.inj h1'
    rw [h2] at h2'; cases Option.some.inj h2'
    dsimp only
    cases hn : t.n i with
    | none => simp [renumber]
    | some k' =>
      by_cases hk' : k' ∈ r
      · have e : renumber r kept (some k') = none := by unfold renumber; simp [hk']
        rw [e]
        have nk : k' ∉ kept := by rw [hk, mem_keptOf]; exact fun h => h.2 hk'
        refine ⟨fun j' => ?_, ?_⟩
        · constructor
          · intro h; cases h
          · rintro ⟨k2, h5, h6⟩
            cases Option.some.inj h6
            exact absurd (List.mem_of_getElem? h5) nk
        · simp only [true_iff]
          intro k2 h5 h6
          cases Option.some.inj h6
          exact nk h5
      · have ik := isKept k k' t i h2 hn hk'
        have e : renumber r kept (some k') = some (kept.idxOf k') := by unfold renumber; simp [hk', ik]
        rw [e]
        have gi : kept[kept.idxOf k']? = some k' := by rw [List.getElem?_eq_getElem (List.idxOf_lt_length_of_mem ik), List.getElem_idxOf]
        refine ⟨fun j' => ?_, ?_⟩
        · constructor
          · intro h; cases Option.some.inj h; exact ⟨k', gi, rfl⟩
          · rintro ⟨k2, h5, h6⟩
            cases Option.some.inj h6
            have hj' := (List.getElem?_eq_some_iff.1 h5).1
            rw [(List.getElem?_inj hj' ndk).1 (h5.trans gi.symm)]
        · constructor
          · intro h; cases h
          · intro h; exact absurd rfl (h k' ik)
  have fixed_edges : ∀ a b, edge a b ∈ d.fixed ↔ edge (a + 3) (b + 3) ∈ fixed := by
    intro a b
    rw [hd]
    dsimp only
    rw [List.mem_map]
    constructor
    · rintro ⟨e, he, h⟩
      have hh := hf e he
      rw [← (edge_sub ⟨hh.1, hh.2.1⟩ a b).1 h]; exact he
    · intro he
      have hh := hf _ he
      exact ⟨_, he, (edge_sub ⟨hh.1, hh.2.1⟩ a b).2 rfl⟩
  have get : ∀ (j : Nat) (u : Tri), d.tris[j]? = some u → ∃ k t, kept[j]? = some k ∧ s.tris[k]? = some t := by
    intro j u h
    obtain ⟨k, t, h1, h2, -⟩ := (dt j u).1 h
    exact ⟨k, t, h1, h2⟩
  refine ⟨by rw [hk]; exact keptOf_sorted _ _, mk, by rw [hd]; dsimp only; rw [List.length_map, hlen], corners, across, fixed_edges, ?_, ?_, ?_, ?_⟩
  · intro j u i hu hn
    obtain ⟨k, t, h1, h2⟩ := get j u hu
    have hno := (across j k t u h1 h2 hu i).2.1 hn
    have hkk := (mk k).1 (List.mem_of_getElem? h1)
    rw [fixed_edges, ← corners j k t u h1 h2 hu i, ← corners j k t u h1 h2 hu (i + 1)]
    by_contra hnf
    cases ht : t.n i with
    | none =>
      have := (T.border k t i h2).1 ht
      have b3 := big k t (List.mem_of_getElem? h1) h2 i
      simp only [List.mem_cons, Prod.mk.injEq, List.not_mem_nil, or_false] at this
      omega
    | some k' =>
      have hk' : k' ∈ r := by
        by_contra hnr
        exact hno k' (isKept k k' t i h2 ht hnr) ht
      obtain ⟨k0, t0, i0, e0, l0, r0⟩ := (hro k').1 hk'
      exact hkk.2 ⟨k0, t0, i0, e0, l0, r0.tail (m.open_symm ⟨t, i, h2, ht, hnf⟩)⟩
  · intro u hu
    obtain ⟨j, hj⟩ := List.mem_iff_getElem?.1 hu
    obtain ⟨k, t, h1, h2⟩ := get j u hj
    have hc := corners j k t u h1 h2 hj
    have := T.ccw t (List.mem_of_getElem? h2)
    unfold Tri.at at this ⊢
    rw [hc 0, hc 1, hc 2] at this
    exact this
  · intro u hu i
    obtain ⟨j, hj⟩ := List.mem_iff_getElem?.1 hu
    obtain ⟨k, t, h1, h2⟩ := get j u hj
    have hc := corners j k t u h1 h2 hj i
    have := (T.vertices (t.v i)).2 ⟨t, List.mem_of_getElem? h2, i, rfl⟩
    omega
  · intro j j' u i hu hn
    obtain ⟨k, t, h1, h2⟩ := get j u hu
    obtain ⟨k', h3, h4⟩ := ((across j k t u h1 h2 hu i).1 j').1 hn
    obtain ⟨t', l, e', n', v1, v2⟩ := T.neighbours k k' t i h2 h4
    have hu' := (dt j' ⟨fun i => t'.v i - 3, fun i => renumber r kept (t'.n i)⟩).2 ⟨k', t', h3, e', rfl⟩
    refine ⟨_, l, hu', ((across j' k' t' _ h3 e' hu' l).1 j).2 ⟨k, h1, n'⟩, ?_, ?_⟩
    · have c1 := corners j' k' t' _ h3 e' hu' l
      have c2 := corners j k t u h1 h2 hu (i + 1)
      dsimp only at c1 ⊢
      omega
    · have c1 := corners j' k' t' _ h3 e' hu' (l + 1)
      have c2 := corners j k t u h1 h2 hu i
      dsimp only at c1 ⊢
      omega

/-- `erase_outer_triangles`. -/
theorem eraseOuter_spec (h : Placed pos N) (T : Triangulation pos N s) {fixed : List (Nat × Nat)} (hf : FixedEdges N fixed) :
    ∃ old d, eraseOuter s fixed = some d ∧ Erased pos N fixed s old d ∧ d.vt = [] := by
  have hN : 0 < N := by
    have : 0 < s.tris.length := by have := T.count; omega
    have := (T.vertices (s.tris[0].v 0)).2 ⟨s.tris[0], List.getElem_mem _, 0, rfl⟩
    omega
  have hl : 0 < s.vt.length := by have := T.listed; omega
  obtain ⟨l, el⟩ : ∃ l, s.vt[0]? = some l := ⟨_, List.getElem?_eq_getElem hl⟩
  obtain ⟨-, ml⟩ := T.lists 0 l el
  obtain ⟨t, ht, i, hi⟩ := (T.vertices 0).1 hN
  obtain ⟨k, ek⟩ := List.mem_iff_getElem?.1 ht
  cases l with
  | nil => exact absurd ((ml k).2 ⟨t, i, ek, hi⟩) (by simp)
  | cons seed l =>
    have hs : Corner s.tris seed 0 := (ml seed).1 (by simp)
    have valid : ∀ k k', Open fixed s.tris k k' → k' < s.tris.length := by
      rintro k k' ⟨t, i, e, hn, -⟩
      obtain ⟨t', j, e', -⟩ := T.neighbours k k' t i e hn
      exact (List.getElem?_eq_some_iff.1 e').1
    obtain ⟨r, er, nd, hr⟩ := grow_seed (fixed := fixed) valid hs.index
    obtain ⟨d, hd, hE, hv⟩ := finalise_spec h T hf hs nd hr
    refine ⟨_, d, ?_, hE, hv⟩
    unfold eraseOuter
    rw [el, Option.bind_some, List.head?_cons, Option.bind_some, er, Option.bind_some, hd]

end Mcut.Cdt
