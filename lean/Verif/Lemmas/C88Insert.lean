import Verif.Lemmas.C88Disk
import Verif.Lemmas.C33

/-! # All triangles of a disk are inserted with the same orientation -/
namespace Mcut.Cdt
open Mcut.Hmesh Mcut.Preproc

/-- The corners of a triangle, kept or turned around. -/
def orient (g : Nat → Nat) (keep : Bool) (t : Tri) : List Nat := if keep then [g (t.v 0), g (t.v 1), g (t.v 2)] else [g (t.v 2), g (t.v 1), g (t.v 0)]

theorem cyc3 {α : Type} (a b c : α) : cycPairs [a, b, c] = [(a, b), (b, c), (c, a)] := rfl

theorem orient_pairs {g : Nat → Nat} {t : Tri} {p : Nat × Nat} (keep : Bool) :
    p ∈ cycPairs (orient g keep t) ↔ ∃ i : Fin 3, p = if keep then (g (t.v i), g (t.v (i + 1))) else (g (t.v (i + 1)), g (t.v i)) := by
  cases keep with
  | true =>
    simp only [orient, if_true, cyc3, List.mem_cons, List.not_mem_nil, or_false]
    constructor
    · rintro (h | h | h)
      · exact ⟨0, h⟩
      · exact ⟨1, h⟩
      · exact ⟨2, h⟩
    · rintro ⟨i, h⟩
      fin_cases i
      · exact .inl h
      · exact .inr (.inl h)
      · exact .inr (.inr h)
  | false =>
    simp only [orient, Bool.false_eq_true, if_false, cyc3, List.mem_cons, List.not_mem_nil, or_false]
    constructor
    · rintro (h | h | h)
      · exact ⟨1, h⟩
      · exact ⟨0, h⟩
      · exact ⟨2, h⟩
    · rintro ⟨i, h⟩
      fin_cases i
      · exact .inr (.inl h)
      · exact .inl h
      · exact .inr (.inr h)

theorem cyc_map {α β : Type} (w : α → β) (l : List α) : cycPairs (l.map w) = (cycPairs l).map (fun p => (w p.1, w p.2)) := by
  unfold cycPairs
  rw [← List.map_rotate, List.zip_map]
  rfl

theorem orient_fst {g : Nat → Nat} {t : Tri} {keep : Bool} {v : Nat} (h : v ∈ orient g keep t) : ∃ i, v = g (t.v i) := by
  cases keep <;> simp only [orient, if_true, Bool.false_eq_true, if_false, List.mem_cons, List.not_mem_nil, or_false] at h <;> rcases h with h | h | h <;> exact ⟨_, h⟩

variable {n : Nat} {ts : List Tri} {fixed : List (Nat × Nat)} {g : Nat → Nat} {P : Type} {d0 : P} {pts : List P}

theorem Disk.good (D : Disk n ts fixed g) {t : Tri} (ht : t ∈ ts) (keep : Bool) : GoodFace n (orient g keep t) ∧ (orient g keep t).length = 3 := by
  have l3 : (orient g keep t).length = 3 := by cases keep <;> rfl
  refine ⟨⟨by omega, ?_, ?_⟩, l3⟩
  · have h0 := D.ne t ht 0; have h1 := D.ne t ht 1; have h2 := D.ne t ht 2
    change g (t.v 0) ≠ g (t.v 1) at h0
    change g (t.v 1) ≠ g (t.v 2) at h1
    change g (t.v 2) ≠ g (t.v 0) at h2
    cases keep <;> simp only [orient, if_true, Bool.false_eq_true, if_false, List.nodup_cons, List.mem_cons, List.not_mem_nil, or_false, not_or, not_false_eq_true, List.nodup_nil, and_true]
    · exact ⟨⟨h1.symm, h2⟩, h0.symm⟩
    · exact ⟨⟨h0, h2.symm⟩, h1⟩
  · intro v hv
    obtain ⟨i, rfl⟩ := orient_fst hv
    exact D.bound t ht i

theorem good_map {w : Nat → Nat} {N : Nat} (inj : ∀ a b, a < n → b < n → w a = w b → a = b) (lt : ∀ a < n, w a < N) {f : List Nat} (G : GoodFace n f) : GoodFace N (f.map w) := by
  refine ⟨by rw [List.length_map]; exact G.1, ?_, ?_⟩
  · refine (List.nodup_map_iff_inj_on G.2.1).2 fun a ha b hb e => inj a b (G.2.2 a ha) (G.2.2 b hb) e
  · intro v hv
    obtain ⟨a, ha, rfl⟩ := List.mem_map.1 hv
    exact lt a (G.2.2 a ha)

theorem insertable {fs : List (List Nat)} {m : Mesh P} (B : Built d0 pts fs m) {f : List Nat} (G : GoodFace pts.length f) :
    m.isInsertable f = true ↔ ∀ p ∈ cycPairs f, p ∉ fs.flatMap cycPairs := by
  have GP : GoodPolygon m f := nodup_good G.1 G.2.1 (fun v hv => (B.liveV v).2 (G.2.2 v hv))
  rw [C31_insertable_exact B.reach GP G.2.1]
  exact (B.accept f G).1

/-- Two triangles with a directed side in common are the same. -/
theorem Disk.sides (D : Disk n ts fixed g) {keep : Bool} {k k' : Nat} {t t' : Tri} (e : ts[k]? = some t) (e' : ts[k']? = some t') {p : Nat × Nat} (h : p ∈ cycPairs (orient g keep t)) (h' : p ∈ cycPairs (orient g keep t')) : k = k' := by
  obtain ⟨i, h⟩ := (orient_pairs keep).1 h
  obtain ⟨j, h'⟩ := (orient_pairs keep).1 h'
  rw [h] at h'
  cases keep with
  | true =>
    simp only [if_true, Prod.mk.injEq] at h'
    exact (D.uniq k k' t t' i j e e' h'.1 h'.2).1
  | false =>
    simp only [Bool.false_eq_true, if_false, Prod.mk.injEq] at h'
    exact (D.uniq k k' t t' i j e e' h'.2 h'.1).1

theorem insert_all (D : Disk n ts fixed g) {root : Nat} {p rank : Nat → Nat} (H : IsTree fixed ts root p rank) {w : Nat → Nat} (inj : ∀ a b, a < n → b < n → w a = w b → a = b) (lt : ∀ a < n, w a < pts.length)
    {nbrs : List (List Nat)} {m0 : Mesh P} (B : Built d0 pts nbrs m0) {keep : Bool}
    (free : ∀ t ∈ ts, ∀ q ∈ cycPairs (orient g keep t), (w q.1, w q.2) ∉ nbrs.flatMap cycPairs)
    (first : keep = true ∨ ∀ t, ts[root]? = some t → ∃ q ∈ cycPairs (orient g true t), (w q.1, w q.2) ∈ nbrs.flatMap cycPairs)
    {order : List Nat} (perm : order.Perm (List.range ts.length)) (ord : ∀ l1 k l2, order = l1 ++ k :: l2 → k ≠ root → p k ∈ l1) :
    (insertTris w g ts order m0).2 = (order.filterMap (ts[·]?)).map (orient g keep) := by
  have nd : order.Nodup := perm.nodup_iff.2 List.nodup_range
  have olt : ∀ k ∈ order, k < ts.length := fun k hk => List.mem_range.1 (perm.mem_iff.1 hk)
  have step : ∀ (l done : List Nat), order = done ++ l → ∀ m, Built d0 pts (nbrs ++ ((done.filterMap (ts[·]?)).map (orient g keep)).map (List.map w)) m →
      ((l.filterMap (ts[·]?)).foldl (fun s t => insertTri w g t s) (m, (done.filterMap (ts[·]?)).map (orient g keep))).2 = (order.filterMap (ts[·]?)).map (orient g keep) := by
    intro l
    induction l with
    | nil => intro done e m _; rw [e]; simp
    | cons k l ih =>
      intro done e m Bm
      have hk := olt k (by rw [e]; simp)
      obtain ⟨t, et⟩ : ∃ t, ts[k]? = some t := ⟨_, List.getElem?_eq_getElem hk⟩
      have ht := List.mem_of_getElem? et
      have kd : k ∉ done := by
        rw [e, List.nodup_append] at nd
        exact fun h => nd.2.2 k h k (by simp) rfl
      have used : ∀ q : Nat × Nat, q ∈ (nbrs ++ ((done.filterMap (ts[·]?)).map (orient g keep)).map (List.map w)).flatMap cycPairs ↔
          q ∈ nbrs.flatMap cycPairs ∨ ∃ k' ∈ done, ∃ t', ts[k']? = some t' ∧ ∃ q' ∈ cycPairs (orient g keep t'), q = (w q'.1, w q'.2) := by
        intro q
        rw [List.flatMap_append, List.mem_append]
        apply or_congr Iff.rfl
        rw [List.mem_flatMap]
        constructor
        · rintro ⟨f, hf, hq⟩
          obtain ⟨f', hf', rfl⟩ := List.mem_map.1 hf
          obtain ⟨t', ht', rfl⟩ := List.mem_map.1 hf'
          obtain ⟨k', hk', e'⟩ := List.mem_filterMap.1 ht'
          rw [cyc_map] at hq
          obtain ⟨q', h1, h2⟩ := List.mem_map.1 hq
          exact ⟨k', hk', t', e', q', h1, h2.symm⟩
        · rintro ⟨k', hk', t', e', q', h1, h2⟩
          refine ⟨(orient g keep t').map w, List.mem_map.2 ⟨_, List.mem_map.2 ⟨t', List.mem_filterMap.2 ⟨k', hk', e'⟩, rfl⟩, rfl⟩, ?_⟩
          rw [cyc_map]
          exact List.mem_map.2 ⟨q', h1, h2.symm⟩
      have fst_lt : ∀ {t' : Tri}, t' ∈ ts → ∀ {b : Bool} {q : Nat × Nat}, q ∈ cycPairs (orient g b t') → q.1 < n ∧ q.2 < n := by
        intro t' ht' b q hq
        obtain ⟨i, hi⟩ := (orient_pairs b).1 hq
        have b1 := D.bound t' ht' i
        have b2 := D.bound t' ht' (i + 1)
        cases b
        · simp only [Bool.false_eq_true, if_false] at hi; rw [hi]; exact ⟨b2, b1⟩
        · simp only [if_true] at hi; rw [hi]; exact ⟨b1, b2⟩
      -- accepted in this orientation
      have acc : ∀ q ∈ cycPairs ((orient g keep t).map w), q ∉ (nbrs ++ ((done.filterMap (ts[·]?)).map (orient g keep)).map (List.map w)).flatMap cycPairs := by
        intro q hq hu
        rw [cyc_map] at hq
        obtain ⟨q1, h1, rfl⟩ := List.mem_map.1 hq
        rcases (used _).1 hu with hu | ⟨k', hk', t', e', q', h2, h3⟩
        · exact free t ht q1 h1 hu
        · have a1 := fst_lt ht h1
          have a2 := fst_lt (List.mem_of_getElem? e') h2
          simp only [Prod.mk.injEq] at h3
          have e1 := inj _ _ a1.1 a2.1 h3.1
          have e2 := inj _ _ a1.2 a2.2 h3.2
          have : q1 = q' := Prod.ext e1 e2
          subst this
          exact kd (by rw [D.sides et e' h1 h2]; exact hk')
      have G := fun b => good_map inj lt (D.good ht b).1
      have A := Bm.accept _ (G keep)
      have ok := A.1.2 acc
      have choice : (if m.isInsertable ((orient g true t).map w) then orient g true t else orient g false t) = orient g keep t := by
        cases keep with
        | true => rw [if_pos ((insertable Bm (G true)).2 acc)]
        | false =>
          rw [if_neg]
          intro hin
          have no := (insertable Bm (G true)).1 hin
          by_cases hr : k = root
          · subst hr
            rcases first with h | h
            · cases h
            · obtain ⟨q, h1, h2⟩ := h t et
              exact no (w q.1, w q.2) (by rw [cyc_map]; exact List.mem_map.2 ⟨q, h1, rfl⟩) ((used _).2 (.inl h2))
          · have hp := ord done k l e hr
            obtain ⟨⟨t', i, e', hn, hf⟩, -⟩ := H.up k hk hr
            obtain ⟨k2, t2, l2, n2, g2, v1, v2⟩ := D.mate (p k) t' i e' hf
            obtain rfl : k = k2 := Option.some.inj (hn.symm.trans n2)
            obtain rfl : t = t2 := Option.some.inj (et.symm.trans g2)
            have h1 : (g (t'.v (i + 1)), g (t'.v i)) ∈ cycPairs (orient g true t) := (orient_pairs true).2 ⟨l2, by simp only [if_true]; rw [v1, v2]⟩
            have h2 : (g (t'.v (i + 1)), g (t'.v i)) ∈ cycPairs (orient g false t') := (orient_pairs false).2 ⟨i, by simp⟩
            exact no (w (g (t'.v (i + 1))), w (g (t'.v i))) (by rw [cyc_map]; exact List.mem_map.2 ⟨_, h1, rfl⟩) ((used _).2 (.inr ⟨p k, hp, t', e', _, h2, rfl⟩))
      have one : insertTri w g t (m, (done.filterMap (ts[·]?)).map (orient g keep)) = ((m.addFace ((orient g keep t).map w)).1, ((done ++ [k]).filterMap (ts[·]?)).map (orient g keep)) := by
        have e0 : ∀ o, insertTri w g t (m, o) = (fun l' : List Nat => if (m.addFace (l'.map w)).2 = none then ((m.addFace (l'.map w)).1, o) else ((m.addFace (l'.map w)).1, o ++ [l']))
            (if m.isInsertable ((orient g true t).map w) then orient g true t else orient g false t) := fun _ => rfl
        rw [e0, choice]
        simp only
        rw [if_neg ok]
        rw [List.filterMap_append, List.map_append]
        simp [et]
      have key := ih (done ++ [k]) (by rw [e]; simp) (m.addFace ((orient g keep t).map w)).1 (by
        have := A.2 ok
        rw [List.append_assoc] at this
        rw [List.filterMap_append, List.map_append, List.map_append]
        simpa [et] using this)
      rw [List.filterMap_cons, et, List.foldl_cons, one]
      exact key
  have := step order [] rfl m0 (by simpa using B)
  exact this

end Mcut.Cdt
