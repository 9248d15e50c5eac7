import Verif.Lemmas.C87Tree

/-! # The border of a part of the triangulation with the outline of a face -/
namespace Mcut.Cdt
open Mcut.Geom
variable {K : Type} [Field K] [LinearOrder K] [IsStrictOrderedRing K]
variable {pos : Nat → V2 K} {N n : Nat} {s : St} {fixed : List (Nat × Nat)}

/-- A way to choose the sides such that they are in a set of sides by which all triangles can be reached. -/
theorem parents_exist (T : Triangulation pos N s) {root : Fin s.tris.length} {i0 : Fin 3} (h0 : Sd.n ((root, i0) : Sd s.tris) = none) (X : Nat → Nat → Prop) (sym : ∀ u v, X u v → X v u)
    (all : ∀ k, Relation.ReflTransGen (fun k k' : Fin s.tris.length => ∃ i, Sd.n ((k, i) : Sd s.tris) = some k'.1 ∧ X (Sd.a ((k, i) : Sd s.tris)) (Sd.b ((k, i) : Sd s.tris))) root k) :
    ∃ p rank, Parents s.tris root p rank ∧ ∀ k, k ≠ root → X (Sd.a ((k, p k) : Sd s.tris)) (Sd.b ((k, p k) : Sd s.tris)) := by
  classical
  obtain ⟨st, hst⟩ : ∃ st : Fin s.tris.length → Fin s.tris.length → Prop, st = fun k k' => ∃ i, Sd.n ((k, i) : Sd s.tris) = some k'.1 ∧ X (Sd.a ((k, i) : Sd s.tris)) (Sd.b ((k, i) : Sd s.tris)) := ⟨_, rfl⟩
  rw [← hst] at all
  -- the number of steps
  obtain ⟨R, hR0, hR1⟩ : ∃ R : Nat → Fin s.tris.length → Prop, (∀ k, R 0 k ↔ k = root) ∧ ∀ m k, R (m + 1) k ↔ ∃ k0, R m k0 ∧ st k0 k :=
    ⟨fun m => Nat.rec (motive := fun _ => Fin s.tris.length → Prop) (fun k => k = root) (fun _ Q k => ∃ k0, Q k0 ∧ st k0 k) m, fun _ => Iff.rfl, fun _ _ => Iff.rfl⟩
  have ex : ∀ k, ∃ m, R m k := by
    intro k
    induction all k with
    | refl => exact ⟨0, (hR0 _).2 rfl⟩
    | tail _ hs ih =>
      obtain ⟨m, hm⟩ := ih
      exact ⟨m + 1, (hR1 _ _).2 ⟨_, hm, hs⟩⟩
  obtain ⟨rank, hrank⟩ : ∃ rank : Nat → Nat, ∀ k : Fin s.tris.length, rank k.1 = Nat.find (ex k) :=
    ⟨fun k => if h : k < s.tris.length then Nat.find (ex ⟨k, h⟩) else 0, fun k => by simp⟩
  have up : ∀ k, k ≠ root → ∃ i k', Sd.n ((k, i) : Sd s.tris) = some k' ∧ rank k' < rank k ∧ X (Sd.a ((k, i) : Sd s.tris)) (Sd.b ((k, i) : Sd s.tris)) := by
    intro k hk
    have h1 := Nat.find_spec (ex k)
    rw [← hrank] at h1
    cases hm : rank k with
    | zero => rw [hm] at h1; exact absurd ((hR0 _).1 h1) hk
    | succ m =>
      rw [hm] at h1
      obtain ⟨k0, hk0, hs⟩ := (hR1 _ _).1 h1
      rw [hst] at hs
      obtain ⟨i, hn, hx⟩ := hs
      obtain ⟨y, hy, ya, yb, yn⟩ := T.mutual.mate (k0, i) hn
      have e : y.1 = k := Fin.ext hy
      obtain ⟨y1, y2⟩ := y
      dsimp only at e
      subst e
      refine ⟨y2, k0, yn, ?_, ?_⟩
      · have := Nat.find_min' (ex k0) hk0
        rw [← hrank] at this
        omega
      · rw [ya, yb]; exact sym _ _ hx
  have : ∀ k, ∃ i, (k = root → i = i0) ∧ (k ≠ root → ∃ k', Sd.n ((k, i) : Sd s.tris) = some k' ∧ rank k' < rank k ∧ X (Sd.a ((k, i) : Sd s.tris)) (Sd.b ((k, i) : Sd s.tris))) := by
    intro k
    by_cases hk : k = root
    · exact ⟨i0, fun _ => rfl, fun h => absurd hk h⟩
    · obtain ⟨i, h⟩ := up k hk
      exact ⟨i, fun h => absurd h hk, fun _ => h⟩
  choose p hp using this
  refine ⟨p, rank, ⟨by rw [(hp root).1 rfl]; exact h0, fun k hk => ?_⟩, fun k hk => ?_⟩
  · obtain ⟨k', h1, h2, -⟩ := (hp k).2 hk
    exact ⟨k', h1, h2⟩
  · obtain ⟨k', -, -, h3⟩ := (hp k).2 hk
    exact h3

/-- The fixed edges are the edges of the outline, and these are in the triangulation. -/
structure Outlined (s : St) (n : Nat) (fixed : List (Nat × Nat)) : Prop where
  three : 3 ≤ n
  fix : ∀ u v, edge u v ∈ fixed ↔ ∃ i < n, edge u v = edge (i + 3) ((i + 1) % n + 3)
  there : ∀ i < n, IsEdge s.tris (i + 3) ((i + 1) % n + 3)

theorem insertEdge_outlined {e : Nat × Nat} {f f' : List (Nat × Nat)} (T : Triangulation pos N s) {a b : Nat} (he : e = edge a b) (hab : a ≠ b) (h : insertEdge s f e = some f') :
    (∀ x, x ∈ f' ↔ x ∈ f ∨ x = e) ∧ IsEdge s.tris a b := by
  have hne : e.1 ≠ e.2 := by rw [he]; unfold edge; split <;> dsimp only <;> omega
  unfold insertEdge at h
  rw [if_neg hne] at h
  obtain ⟨bb, hb, h⟩ := Option.bind_eq_some_iff.1 h
  have hbt : bb = true := by
    cases bb
    · cases h
    · rfl
  subst hbt
  rw [if_pos rfl] at h
  refine ⟨?_, ?_⟩
  · injection h with h
    intro x
    rw [← h]
    split
    · rename_i hm
      constructor
      · exact .inl
      · rintro (hx | rfl)
        exacts [hx, hm]
    · rw [List.mem_cons]; exact or_comm
  · unfold shareEdge at hb
    obtain ⟨la, ha, hb⟩ := Option.bind_eq_some_iff.1 hb
    obtain ⟨lb, hlb, hb⟩ := Option.map_eq_some_iff.1 hb
    rw [List.any_eq_true] at hb
    obtain ⟨k, hk, hk'⟩ := hb
    have hk' : k ∈ lb := by simpa using hk'
    obtain ⟨t, i, et, hi⟩ := ((T.lists _ _ ha).2 k).1 hk
    obtain ⟨t', j, et', hj⟩ := ((T.lists _ _ hlb).2 k).1 hk'
    rw [et] at et'
    obtain rfl := Option.some.inj et'
    have hlt : k < s.tris.length := (List.getElem?_eq_some_iff.1 et).1
    have main : IsEdge s.tris e.1 e.2 := by
      have hij : j ≠ i := by rintro rfl; exact hne (hi.symm.trans hj)
      have : j = i + 1 ∨ i = j + 1 := by
        revert hij
        clear hi hj
        fin_cases i <;> fin_cases j <;> decide
      have et2 : s.tris[k] = t := (List.getElem?_eq_some_iff.1 et).2
      rcases this with h1 | h1
      · refine ⟨(⟨k, hlt⟩, i), .inl ⟨?_, ?_⟩⟩
        · show s.tris[k].v i = _; rw [et2, hi]
        · show s.tris[k].v (i + 1) = _; rw [et2, ← h1, hj]
      · refine ⟨(⟨k, hlt⟩, j), .inr ⟨?_, ?_⟩⟩
        · show s.tris[k].v j = _; rw [et2, hj]
        · show s.tris[k].v (j + 1) = _; rw [et2, ← h1, hi]
    rw [he] at main
    unfold edge at main
    split at main
    · exact main
    · exact main.symm

theorem next_ne {n i : Nat} (h : 3 ≤ n) (hi : i < n) : i ≠ (i + 1) % n := by
  by_cases e : i + 1 = n
  · rw [e, Nat.mod_self]; omega
  · rw [Nat.mod_eq_of_lt (by omega)]; omega

theorem insertEdges_outlined (T : Triangulation pos N s) (three : 3 ≤ n) (h : insertEdges s n = some fixed) : Outlined s n fixed := by
  have key : ∀ (l : List Nat) (f f' : List (Nat × Nat)), (∀ i ∈ l, i < n) → l.foldlM (fun fixed i => insertEdge s fixed (edge (i + 3) ((i + 1) % n + 3))) f = some f' →
      (∀ x, x ∈ f' ↔ x ∈ f ∨ ∃ i ∈ l, x = edge (i + 3) ((i + 1) % n + 3)) ∧ ∀ i ∈ l, IsEdge s.tris (i + 3) ((i + 1) % n + 3) := by
    intro l
    induction l with
    | nil =>
      intro f f' _ h
      injection h with h
      subst h
      simp
    | cons i l ih =>
      intro f f' hl h
      rw [List.foldlM_cons] at h
      obtain ⟨f1, h1, h2⟩ := Option.bind_eq_some_iff.1 h
      have hne := next_ne three (hl i (by simp))
      obtain ⟨a1, a2⟩ := insertEdge_outlined T rfl (by omega) h1
      obtain ⟨b1, b2⟩ := ih f1 f' (fun j hj => hl j (by simp [hj])) h2
      constructor
      · intro x
        rw [b1, a1]
        simp only [List.mem_cons, exists_eq_or_imp]
        tauto
      · intro j hj
        rcases List.mem_cons.1 hj with rfl | hj
        exacts [a2, b2 j hj]
  obtain ⟨h1, h2⟩ := key (List.range n) [] fixed (fun i hi => List.mem_range.1 hi) h
  refine ⟨three, fun u v => ?_, fun i hi => h2 i (List.mem_range.2 hi)⟩
  rw [h1]
  simp

theorem Outlined.ge (O : Outlined s n fixed) {u v : Nat} (h : edge u v ∈ fixed) : (3 ≤ u ∧ u < n + 3) ∧ 3 ≤ v ∧ v < n + 3 := by
  obtain ⟨i, hi, e⟩ := (O.fix u v).1 h
  have := Nat.mod_lt (i + 1) (show 0 < n by omega)
  rcases edge_eq.1 e with ⟨rfl, rfl⟩ | ⟨rfl, rfl⟩ <;> omega

theorem edge_norm (a b : Nat) : edge (edge a b).1 (edge a b).2 = edge a b := by
  rw [edge_eq]
  unfold edge
  split
  · exact .inl ⟨rfl, rfl⟩
  · exact .inr ⟨rfl, rfl⟩

theorem Outlined.fixedEdges (O : Outlined s n fixed) (h : insertEdges s n = some fixed) : FixedEdges (n + 3) fixed := by
  have key : ∀ (l : List Nat) (f f' : List (Nat × Nat)), (∀ x ∈ f, x = edge x.1 x.2 ∧ x.1 ≠ x.2) → l.foldlM (fun fixed i => insertEdge s fixed (edge (i + 3) ((i + 1) % n + 3))) f = some f' →
      ∀ x ∈ f', x = edge x.1 x.2 ∧ x.1 ≠ x.2 := by
    intro l
    induction l with
    | nil =>
      intro f f' hf h
      injection h with h
      subst h
      exact hf
    | cons i l ih =>
      intro f f' hf h
      rw [List.foldlM_cons] at h
      obtain ⟨f1, h1, h2⟩ := Option.bind_eq_some_iff.1 h
      refine ih f1 f' ?_ h2
      obtain ⟨e, he⟩ : ∃ e, e = edge (i + 3) ((i + 1) % n + 3) := ⟨_, rfl⟩
      rw [← he] at h1
      unfold insertEdge at h1
      by_cases hne : e.1 = e.2
      · rw [if_pos hne] at h1
        injection h1 with h1
        rw [← h1]; exact hf
      · rw [if_neg hne] at h1
        obtain ⟨bb, -, h1⟩ := Option.bind_eq_some_iff.1 h1
        cases bb
        · cases h1
        · rw [if_pos rfl] at h1
          injection h1 with h1
          rw [← h1]
          intro x hx
          split at hx
          · exact hf x hx
          · rcases List.mem_cons.1 hx with rfl | hx
            · refine ⟨?_, hne⟩
              rw [he, edge_norm]
            · exact hf x hx
  intro e he
  obtain ⟨h1, h2⟩ := key (List.range n) [] fixed (by simp) h e he
  have h3 := O.ge (u := e.1) (v := e.2) (by rw [← h1]; exact he)
  have : e.1 < e.2 := by
    by_contra hc
    unfold edge at h1
    rw [if_neg hc] at h1
    exact h2 (congrArg Prod.fst h1)
  omega

/-- Two edges of the outline are different. -/
theorem Outlined.other_edge (three : 3 ≤ n) {i0 i : Nat} (h0 : i0 < n) (hi : i < n) (h1 : i ≠ i0) : edge (i + 3) ((i + 1) % n + 3) ≠ edge (i0 + 3) ((i0 + 1) % n + 3) := by
  intro e
  have q : ∀ j, j < n → (j + 1) % n = j + 1 ∧ j + 1 < n ∨ (j + 1) % n = 0 ∧ j + 1 = n := by
    intro j hj
    by_cases hc : j + 1 = n
    · exact .inr ⟨by rw [hc, Nat.mod_self], hc⟩
    · exact .inl ⟨Nat.mod_eq_of_lt (by omega), by omega⟩
  have q1 := q i hi
  have q2 := q i0 h0
  rcases edge_eq.1 e with ⟨e1, e2⟩ | ⟨e1, e2⟩ <;> omega

/-- From one position to all of them, around the outline. -/
theorem around {n : Nat} {Q : Nat → Prop} {i : Nat} (hi : i < n) (h : Q i) (step : ∀ j < n, Q j → Q ((j + 1) % n)) : ∀ j < n, Q j := by
  have up : ∀ d, i + d < n → Q (i + d) := by
    intro d
    induction d with
    | zero => intro _; exact h
    | succ d ih =>
      intro hd
      have := step (i + d) (by omega) (ih (by omega))
      rw [Nat.mod_eq_of_lt (by omega)] at this
      exact this
  have h0 : Q 0 := by
    have h1 := up (n - 1 - i) (by omega)
    have := step _ (by omega) h1
    rw [show i + (n - 1 - i) + 1 = n by omega, Nat.mod_self] at this
    exact this
  intro j
  induction j with
  | zero => intro _; exact h0
  | succ j ih =>
    intro hj
    have := step j (by omega) (ih (by omega))
    rw [Nat.mod_eq_of_lt hj] at this
    exact this

/-- The outline without one of its edges connects its vertices. -/
theorem Outlined.path (three : 3 ≤ n) {i0 : Nat} {R : Nat → Nat → Prop} (sym : ∀ u v, R u v → R v u) (step : ∀ i, i ≠ i0 → i < n → R (i + 3) ((i + 1) % n + 3)) {u v : Nat} (hu : u < n) (hv : v < n) :
    Relation.ReflTransGen R (u + 3) (v + 3) := by
  have all : ∀ i, i < n → Relation.ReflTransGen R ((i0 + 1) % n + 3) (i + 3) := by
    refine around (Q := fun i => Relation.ReflTransGen R ((i0 + 1) % n + 3) (i + 3)) (Nat.mod_lt (i0 + 1) (show 0 < n by omega)) .refl ?_
    intro j hj hr
    by_cases h0 : j = i0
    · rw [h0]
    · exact hr.tail (step j h0 hj)
  have rev : ∀ x y, Relation.ReflTransGen R x y → Relation.ReflTransGen R y x := by
    intro x y h
    induction h with
    | refl => exact .refl
    | tail _ hs ih => exact ih.head (sym _ _ hs)
  exact (rev _ _ (all u hu)).trans (all v hv)

/-- Crossing sides that are not fixed. -/
theorem lift_open (T : Triangulation pos N s) (X : Nat → Nat → Prop) (hX : ∀ u v, edge u v ∉ fixed → X u v) {k k' : Nat} (hr : Relation.ReflTransGen (Open fixed s.tris) k k') (hk : k < s.tris.length) :
    ∃ hk' : k' < s.tris.length, Relation.ReflTransGen (fun k k' : Fin s.tris.length => ∃ i, Sd.n ((k, i) : Sd s.tris) = some k'.1 ∧ X (Sd.a ((k, i) : Sd s.tris)) (Sd.b ((k, i) : Sd s.tris))) ⟨k, hk⟩ ⟨k', hk'⟩ := by
  induction hr with
  | refl => exact ⟨hk, .refl⟩
  | @tail b c _ ho ih =>
    obtain ⟨h1, hr⟩ := ih
    obtain ⟨t, i, e, hn, hf⟩ := ho
    have et := (List.getElem?_eq_some_iff.1 e).2
    have hn' : Sd.n ((⟨b, h1⟩, i) : Sd s.tris) = some c := by show Tri.n (s.tris[b]) i = _; rw [et]; exact hn
    obtain ⟨y, rfl, -⟩ := T.mutual.mate _ hn'
    refine ⟨y.1.2, hr.tail ⟨i, hn', hX _ _ ?_⟩⟩
    show edge (Tri.v (s.tris[b]) i) (Tri.v (s.tris[b]) (i + 1)) ∉ fixed
    rw [et]; exact hf

/-- A crossed edge of the tree: a side that was chosen, or a side of the super-triangle. -/
theorem crossed_in {root : Fin s.tris.length} {p : Fin s.tris.length → Fin 3} {rank : Nat → Nat} (T : Triangulation pos N s) (P : Parents s.tris root p rank) {X : Nat → Nat → Prop} (sym : ∀ u v, X u v → X v u)
    (hp : ∀ k, k ≠ root → X (Sd.a ((k, p k) : Sd s.tris)) (Sd.b ((k, p k) : Sd s.tris))) {u v : Nat} (hu : 3 ≤ u) (h : Crossed s.tris p u v) : X u v := by
  obtain ⟨k, hk⟩ := h
  by_cases hr : k = root
  · exfalso
    subst hr
    have := (T.border k _ (p k) (Sd.get ((k, p k) : Sd s.tris))).1 P.root_side
    have e : (Sd.a ((k, p k) : Sd s.tris), Sd.b ((k, p k) : Sd s.tris)) ∈ [(0, 1), (1, 2), (2, 0)] := this
    simp only [List.mem_cons, Prod.mk.injEq, List.not_mem_nil, or_false] at e
    omega
  · rcases hk with ⟨rfl, rfl⟩ | ⟨rfl, rfl⟩
    · exact hp k hr
    · exact sym _ _ (hp k hr)

/-- Some triangles are not outside. -/
theorem Outlined.inside (h : Placed pos (n + 3)) (T : Triangulation pos (n + 3) s) (O : Outlined s n fixed) (hf : FixedEdges (n + 3) fixed) : ∃ k < s.tris.length, ¬Outside fixed s.tris k := by
  have three := O.three
  by_contra hno
  push Not at hno
  obtain ⟨⟨root, i0⟩, ra, rb, rn⟩ := h.rims T (0, 1) (by simp)
  have hs : Corner s.tris root 0 := ⟨_, i0, Sd.get ((root, i0) : Sd s.tris), ra⟩
  have hf' : ∀ e ∈ fixed, 3 ≤ e.1 ∧ 3 ≤ e.2 := fun e he => by have := hf e he; omega
  have sym : ∀ u v, edge u v ∉ fixed → edge v u ∉ fixed := fun u v h => by rw [edge_comm]; exact h
  obtain ⟨p, rank, P, hp⟩ := parents_exist T rn (fun u v => edge u v ∉ fixed) sym (fun k =>
    (lift_open T (fun u v => edge u v ∉ fixed) (fun _ _ h => h) ((h.outside_iff T hf' hs k).1 (hno k k.2)) root.2).2)
  have free : ∀ i < n, Free s.tris p (i + 3) ((i + 1) % n + 3) := fun i hi =>
    ⟨O.there i hi, fun hc => crossed_in T P sym hp (by omega) hc ((O.fix _ _).2 ⟨i, hi, rfl⟩)⟩
  have h0 := free 0 (by omega)
  rw [Nat.zero_add, Nat.zero_add, Nat.mod_eq_of_lt (by omega)] at h0
  apply P.bridge h T (by omega) h0
  refine Outlined.path (i0 := 0) (R := fun u v => Free s.tris p u v ∧ edge u v ≠ edge 3 4) three ?_ ?_ (u := 0) (v := 1) (by omega) (by omega)
  · rintro u v ⟨h1, h2⟩
    exact ⟨⟨h1.1.symm, fun hc => h1.2 hc.symm⟩, by rw [edge_comm]; exact h2⟩
  · intro i h1 hi
    have := Outlined.other_edge three (show 0 < n by omega) hi h1
    rw [Nat.zero_add, Nat.zero_add, Nat.mod_eq_of_lt (show 1 < n by omega)] at this
    exact ⟨free i hi, this⟩

/-! ## The border -/

/-- A side at which one leaves a set of triangles that are not outside: an edge of the outline, with a triangle on its other side. -/
theorem Outlined.leaving (T : Triangulation pos (n + 3) s) {S : Nat → Prop} (closed : ∀ k k', S k → Open fixed s.tris k k' → S k') (inner : ∀ k, S k → ¬Outside fixed s.tris k) {x : Sd s.tris} (hx : Leaves S x) :
    edge x.a x.b ∈ fixed ∧ ∃ k, x.n = some k ∧ ¬S k := by
  have no : (x.a, x.b) ∉ [(0, 1), (1, 2), (2, 0)] := by
    intro hr
    apply inner _ hx.1
    refine ⟨x.1, x.tri, x.2, x.get, ?_, .refl⟩
    have : x.a < 3 := by
      simp only [List.mem_cons, Prod.mk.injEq, List.not_mem_nil, or_false] at hr
      omega
    exact this
  rcases T.leaves closed hx with h | ⟨-, h⟩
  · refine ⟨h, ?_⟩
    cases hn : x.n with
    | none => exact absurd ((T.border x.1 x.tri x.2 x.get).1 hn) no
    | some k => exact ⟨k, rfl, hx.2 k hn⟩
  · exact absurd h no

/-- Not both sides of an edge are at the border. -/
theorem leaves_one (T : Triangulation pos N s) {S : Nat → Prop} {x y : Sd s.tris} (hx : Leaves S x) (hy : Leaves S y) {k : Nat} (hn : x.n = some k) (h1 : y.a = x.b) (h2 : y.b = x.a) : False := by
  obtain ⟨z, hz, za, zb, -⟩ := T.mutual.mate x hn
  have := T.unique (x := z) (y := y) (za.trans h1.symm) (zb.trans h2.symm)
  subst this
  exact hx.2 k hn (by rw [← hz]; exact hy.1)

open Classical in
/-- A part that is not empty has a border. -/
theorem border_exists (T : Triangulation pos N s) {S : Nat → Prop} {k : Nat} (hk : k < s.tris.length) (hS : S k) : ∃ x : Sd s.tris, Leaves S x := by
  by_contra hno
  push Not at hno
  obtain ⟨t, ht⟩ : ∃ t, t = s.tris[k] := ⟨_, rfl⟩
  have cc := T.ccw t (by rw [ht]; exact List.getElem_mem _)
  obtain ⟨q, h1, -⟩ := overlap cc cc
  obtain ⟨φ, hφ⟩ : ∃ φ : Nat → Nat → Int, ∀ a b, φ a b = cross q (pos a) (pos b) := ⟨fun a b => cross q (pos a) (pos b), fun _ _ => rfl⟩
  have c := cancel T.mutual S φ (fun a b => by rw [hφ, hφ]; exact cross_swap q (pos a) (pos b))
  rw [sum_sides] at c
  have z : ∑ x : Sd s.tris with Leaves S x, φ x.a x.b = 0 := by
    apply Finset.sum_eq_zero
    intro x hx
    exact absurd (Finset.mem_filter.1 hx).2 (hno x)
  rw [z] at c
  simp only [hφ] at c
  have : 0 < ∑ k : Fin s.tris.length with S k.1, (cross q (pos (s.tris[k].v 0)) (pos (s.tris[k].v 1)) + cross q (pos (s.tris[k].v 1)) (pos (s.tris[k].v 2)) + cross q (pos (s.tris[k].v 2)) (pos (s.tris[k].v 0))) := by
    apply Finset.sum_pos'
    · intro k _
      exact (wind_bound (T.ccw _ (List.getElem_mem _))).1
    · refine ⟨⟨k, hk⟩, Finset.mem_filter.2 ⟨Finset.mem_univ _, hS⟩, ?_⟩
      have := (wind_spec (q := q) cc).1 h1.1 h1.2.1 h1.2.2
      unfold wind at this
      rw [ht] at this
      have e : cross q (pos (s.tris[k].v 0)) (pos (s.tris[k].v 1)) + cross q (pos (s.tris[k].v 1)) (pos (s.tris[k].v 2)) + cross q (pos (s.tris[k].v 2)) (pos (s.tris[k].v 0)) = 1 := this
      show 0 < cross q (pos (s.tris[k].v 0)) (pos (s.tris[k].v 1)) + cross q (pos (s.tris[k].v 1)) (pos (s.tris[k].v 2)) + cross q (pos (s.tris[k].v 2)) (pos (s.tris[k].v 0))
      rw [e]; exact Int.one_pos
  omega

theorem next_inj {n i j : Nat} (hi : i < n) (hj : j < n) (h : (i + 1) % n = (j + 1) % n) : i = j := by
  by_cases h1 : i + 1 = n <;> by_cases h2 : j + 1 = n
  · omega
  · rw [h1, Nat.mod_self, Nat.mod_eq_of_lt (by omega)] at h; omega
  · rw [h2, Nat.mod_self, Nat.mod_eq_of_lt (by omega)] at h; omega
  · rw [Nat.mod_eq_of_lt (by omega), Nat.mod_eq_of_lt (by omega)] at h; omega

theorem prev_ex {n j : Nat} (hj : j < n) : ∃ i < n, (i + 1) % n = j := by
  by_cases h : j = 0
  · exact ⟨n - 1, by omega, by rw [show n - 1 + 1 = n by omega, Nat.mod_self, h]⟩
  · exact ⟨j - 1, by omega, by rw [show j - 1 + 1 = j by omega, Nat.mod_eq_of_lt hj]⟩

/-- The border of such a part is the outline, all in the one or all in the other direction. -/
theorem Outlined.border (T : Triangulation pos (n + 3) s) (O : Outlined s n fixed) {S : Nat → Prop} (closed : ∀ k k', S k → Open fixed s.tris k k' → S k') (inner : ∀ k, S k → ¬Outside fixed s.tris k)
    {k : Nat} (hk : k < s.tris.length) (hS : S k) :
    (∀ u v, (∃ x : Sd s.tris, Leaves S x ∧ x.a = u ∧ x.b = v) ↔ ∃ i < n, u = i + 3 ∧ v = (i + 1) % n + 3) ∨
    (∀ u v, (∃ x : Sd s.tris, Leaves S x ∧ x.a = u ∧ x.b = v) ↔ ∃ i < n, v = i + 3 ∧ u = (i + 1) % n + 3) := by
  have three := O.three
  obtain ⟨F, hF⟩ : ∃ F : Nat → Prop, ∀ i, F i ↔ ∃ x : Sd s.tris, Leaves S x ∧ x.a = i + 3 ∧ x.b = (i + 1) % n + 3 := ⟨_, fun _ => Iff.rfl⟩
  obtain ⟨B, hB⟩ : ∃ B : Nat → Prop, ∀ i, B i ↔ ∃ x : Sd s.tris, Leaves S x ∧ x.b = i + 3 ∧ x.a = (i + 1) % n + 3 := ⟨_, fun _ => Iff.rfl⟩
  have kind : ∀ x : Sd s.tris, Leaves S x → ∃ i < n, (x.a = i + 3 ∧ x.b = (i + 1) % n + 3) ∨ (x.b = i + 3 ∧ x.a = (i + 1) % n + 3) := by
    intro x hx
    obtain ⟨i, hi, e⟩ := (O.fix _ _).1 (Outlined.leaving T closed inner hx).1
    refine ⟨i, hi, ?_⟩
    rcases edge_eq.1 e with h | h
    exacts [.inl h, .inr ⟨h.2, h.1⟩]
  have noFB : ∀ i, F i → B i → False := by
    intro i h1 h2
    obtain ⟨x, lx, xa, xb⟩ := (hF i).1 h1
    obtain ⟨y, ly, yb, ya⟩ := (hB i).1 h2
    obtain ⟨-, k, hn, -⟩ := Outlined.leaving T closed inner lx
    exact leaves_one T lx ly hn (ya.trans xb.symm) (yb.trans xa.symm)
  have stepF : ∀ j < n, F j → F ((j + 1) % n) := by
    intro j hj h1
    obtain ⟨x, lx, xa, xb⟩ := (hF j).1 h1
    obtain ⟨y, ly, ya⟩ := (T.mutual.turn S).1 ⟨x, lx, xb⟩
    obtain ⟨i, hi, ⟨e1, e2⟩ | ⟨e1, e2⟩⟩ := kind y ly
    · have : i = (j + 1) % n := by omega
      subst this
      exact (hF _).2 ⟨y, ly, e1, e2⟩
    · exfalso
      have : i = j := next_inj hi hj (by omega)
      subst this
      exact noFB i h1 ((hB i).2 ⟨y, ly, e1, e2⟩)
  have stepB : ∀ j < n, B ((j + 1) % n) → B j := by
    intro j hj h1
    obtain ⟨x, lx, xb, xa⟩ := (hB _).1 h1
    obtain ⟨y, ly, ya⟩ := (T.mutual.turn S).1 ⟨x, lx, xb⟩
    obtain ⟨i, hi, ⟨e1, e2⟩ | ⟨e1, e2⟩⟩ := kind y ly
    · exfalso
      have : i = (j + 1) % n := by omega
      subst this
      exact noFB _ ((hF _).2 ⟨y, ly, e1, e2⟩) h1
    · have : i = j := next_inj hi hj (by omega)
      subst this
      exact (hB i).2 ⟨y, ly, e1, e2⟩
  obtain ⟨x, lx⟩ := border_exists T hk hS
  obtain ⟨i, hi, ⟨e1, e2⟩ | ⟨e1, e2⟩⟩ := kind x lx
  · left
    have all := around hi ((hF i).2 ⟨x, lx, e1, e2⟩) stepF
    intro u v
    constructor
    · rintro ⟨y, ly, rfl, rfl⟩
      obtain ⟨j, hj, h | h⟩ := kind y ly
      · exact ⟨j, hj, h⟩
      · exact (noFB j (all j hj) ((hB j).2 ⟨y, ly, h⟩)).elim
    · rintro ⟨j, hj, rfl, rfl⟩
      exact (hF j).1 (all j hj)
  · right
    have all : ∀ j < n, B j := by
      by_contra hno
      push Not at hno
      obtain ⟨j, hj, hno⟩ := hno
      have := around (Q := fun j => ¬B j) hj hno (fun j hj h1 h2 => h1 (stepB j hj h2)) i hi
      exact this ((hB i).2 ⟨x, lx, e1, e2⟩)
    intro u v
    constructor
    · rintro ⟨y, ly, rfl, rfl⟩
      obtain ⟨j, hj, h | h⟩ := kind y ly
      · exact (noFB j ((hF j).2 ⟨y, ly, h⟩) (all j hj)).elim
      · exact ⟨j, hj, h⟩
    · rintro ⟨j, hj, rfl, rfl⟩
      obtain ⟨y, ly, h1, h2⟩ := (hB j).1 (all j hj)
      exact ⟨y, ly, h2, h1⟩

open Classical in
/-- A sum over the border is a sum over the outline, up to the sign. -/
theorem Outlined.sum (T : Triangulation pos (n + 3) s) (O : Outlined s n fixed) {S : Nat → Prop} (closed : ∀ k k', S k → Open fixed s.tris k k' → S k') (inner : ∀ k, S k → ¬Outside fixed s.tris k)
    {k : Nat} (hk : k < s.tris.length) (hS : S k) :
    ((Finset.univ.filter (fun x : Sd s.tris => Leaves S x)).card = n) ∧ ∃ ε : Int, (ε = 1 ∨ ε = -1) ∧ ∀ (A : Type) [AddCommGroup A] (φ : Nat → Nat → A), (∀ a b, φ b a = -φ a b) →
      ∑ k : Fin s.tris.length with S k.1, (φ (s.tris[k].v 0) (s.tris[k].v 1) + φ (s.tris[k].v 1) (s.tris[k].v 2) + φ (s.tris[k].v 2) (s.tris[k].v 0)) = ε • ∑ i ∈ Finset.range n, φ (i + 3) ((i + 1) % n + 3) := by
  have three := O.three
  have inj : ∀ x y : Sd s.tris, (x.a, x.b) = (y.a, y.b) → x = y := by
    intro x y e
    simp only [Prod.mk.injEq] at e
    exact T.unique e.1 e.2
  rcases O.border T closed inner hk hS with h | h
  · have img : (Finset.univ.filter (fun x : Sd s.tris => Leaves S x)).image (fun x => (x.a, x.b)) = (Finset.range n).image (fun i => (i + 3, (i + 1) % n + 3)) := by
      apply Finset.ext
      rintro ⟨u, v⟩
      simp only [Finset.mem_image, Finset.mem_filter, Finset.mem_univ, true_and, Finset.mem_range, Prod.mk.injEq]
      rw [h u v]
      constructor <;> (rintro ⟨i, hi, h1, h2⟩; exact ⟨i, hi, h1.symm, h2.symm⟩)
    have inj2 : Set.InjOn (fun i => (i + 3, (i + 1) % n + 3)) (Finset.range n : Set Nat) := by
      intro i _ j _ e
      simp only [Prod.mk.injEq] at e
      omega
    refine ⟨?_, 1, .inl rfl, ?_⟩
    · rw [← Finset.card_image_of_injective _ (f := fun x : Sd s.tris => (x.a, x.b)) inj, img, Finset.card_image_of_injOn inj2, Finset.card_range]
    · intro A _ φ anti
      rw [← sum_sides, cancel T.mutual S φ anti, one_smul]
      have e1 := Finset.sum_image (s := Finset.univ.filter (fun x : Sd s.tris => Leaves S x)) (g := fun x : Sd s.tris => (x.a, x.b)) (f := fun e => φ e.1 e.2) (fun x _ y _ e => inj x y e)
      have e2 := Finset.sum_image (s := Finset.range n) (g := fun i => (i + 3, (i + 1) % n + 3)) (f := fun e => φ e.1 e.2) inj2
      rw [img] at e1
      exact e1.symm.trans e2
  · have img : (Finset.univ.filter (fun x : Sd s.tris => Leaves S x)).image (fun x => (x.a, x.b)) = (Finset.range n).image (fun i => ((i + 1) % n + 3, i + 3)) := by
      apply Finset.ext
      rintro ⟨u, v⟩
      simp only [Finset.mem_image, Finset.mem_filter, Finset.mem_univ, true_and, Finset.mem_range, Prod.mk.injEq]
      rw [h u v]
      constructor <;> (rintro ⟨i, hi, h1, h2⟩; exact ⟨i, hi, h2.symm, h1.symm⟩)
    have inj2 : Set.InjOn (fun i => ((i + 1) % n + 3, i + 3)) (Finset.range n : Set Nat) := by
      intro i _ j _ e
      simp only [Prod.mk.injEq] at e
      omega
    refine ⟨?_, -1, .inr rfl, ?_⟩
    · rw [← Finset.card_image_of_injective _ (f := fun x : Sd s.tris => (x.a, x.b)) inj, img, Finset.card_image_of_injOn inj2, Finset.card_range]
    · intro A _ φ anti
      rw [← sum_sides, cancel T.mutual S φ anti, neg_smul, one_smul]
      have e1 := Finset.sum_image (s := Finset.univ.filter (fun x : Sd s.tris => Leaves S x)) (g := fun x : Sd s.tris => (x.a, x.b)) (f := fun e => φ e.1 e.2) (fun x _ y _ e => inj x y e)
      have e2 := Finset.sum_image (s := Finset.range n) (g := fun i => ((i + 1) % n + 3, i + 3)) (f := fun e => φ e.1 e.2) inj2
      rw [img] at e1
      rw [← Finset.sum_neg_distrib]
      refine (e1.symm.trans e2).trans (Finset.sum_congr rfl fun i _ => anti _ _)

end Mcut.Cdt
