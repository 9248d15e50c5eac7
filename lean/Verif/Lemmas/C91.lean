import Verif.Spec.C91
import Mathlib.Tactic.Linarith

/-! # Lemmas for C91 -/
namespace Mcut.Cdt
open Mcut.Geom
variable {V : Type} [DecidableEq V]

/-- What the loop of `find_duplicates` knows when the points `pre` are done. -/
structure Seen (pre : List V) (map : List Nat) (dup : List Nat) (o : Nat) (d : List (V × Nat)) : Prop where
  len : map.length = pre.length
  dict : ∀ (p : V) (k : Nat), d.lookup p = some k ↔ ∃ j : Nat, pre[j]? = some p ∧ map[j]? = some k
  lt : ∀ p k, d.lookup p = some k → k < o
  inj : ∀ p q k, d.lookup p = some k → d.lookup q = some k → p = q
  dups : ∀ k, k ∈ dup ↔ k < pre.length ∧ ∃ j < k, pre[j]? = pre[k]?
  sorted : dup.Pairwise (· < ·)
  number : ∀ k, k < pre.length → k ∉ dup → map[k]? = some (k - (dup.filter (· < k)).length)
  out : o + dup.length = pre.length

theorem Seen.nil : Seen ([] : List V) [] [] 0 [] := by
  refine ⟨rfl, fun p k => ?_, fun p k h => ?_, fun p q k h => ?_, fun k => ?_, List.Pairwise.nil, fun k h => ?_, rfl⟩
  · simp
  · simp at h
  · simp at h
  · simp
  · simp at h

theorem Seen.known {pre : List V} {map dup : List Nat} {o : Nat} {d : List (V × Nat)} (S : Seen pre map dup o d) {p : V} : (∃ k, d.lookup p = some k) ↔ p ∈ pre := by
  constructor
  · rintro ⟨k, hk⟩
    obtain ⟨j, hj, -⟩ := (S.dict p k).1 hk
    exact List.mem_of_getElem? hj
  · intro h
    obtain ⟨j, hj⟩ := List.mem_iff_getElem?.1 h
    have : j < map.length := by rw [S.len]; exact (List.getElem?_eq_some_iff.1 hj).1
    exact ⟨map[j], (S.dict p _).2 ⟨j, hj, List.getElem?_eq_getElem this⟩⟩

theorem app_cases {α : Type} {l : List α} {a : α} {j : Nat} {x : α} : (l ++ [a])[j]? = some x ↔ l[j]? = some x ∨ j = l.length ∧ a = x := by
  rcases Nat.lt_trichotomy j l.length with h | h | h
  · rw [List.getElem?_append_left h]
    constructor
    · exact .inl
    · rintro (h' | ⟨h', -⟩)
      · exact h'
      · omega
  · subst h; simp
  · rw [List.getElem?_append_right (by omega), List.getElem?_eq_none (by simp; omega), List.getElem?_eq_none (by omega)]
    simp; omega

theorem filter_all {l : List Nat} {n k : Nat} (h : ∀ x ∈ l, x < n) (hk : n ≤ k) : l.filter (· < k) = l := by
  rw [List.filter_eq_self]
  intro x hx
  have := h x hx
  simp; omega

theorem Seen.unique {pre : List V} {map dup : List Nat} {o : Nat} {d : List (V × Nat)} (S : Seen pre map dup o d) {p : V} (h : d.lookup p = none) :
    Seen (pre ++ [p]) (map ++ [o]) dup (o + 1) ((p, o) :: d) := by
  have new : p ∉ pre := fun hp => by
    obtain ⟨k, hk⟩ := S.known.2 hp
    rw [h] at hk; cases hk
  have dl : ∀ x ∈ dup, x < pre.length := fun x hx => ((S.dups x).1 hx).1
  have look : ∀ q k, ((p, o) :: d).lookup q = some k ↔ (q = p ∧ k = o) ∨ d.lookup q = some k := by
    intro q k
    rw [List.lookup_cons]
    by_cases hq : q = p
    · subst hq
      rw [h]
      simp [eq_comm]
    · have : (q == p) = false := by simpa using hq
      rw [this]
      simp [hq]
  refine ⟨by simp [S.len], ?_, ?_, ?_, ?_, S.sorted, ?_, by have := S.out; simp; omega⟩
  · intro q k
    rw [look, S.dict]
    constructor
    · rintro (⟨rfl, rfl⟩ | ⟨j, h1, h2⟩)
      · exact ⟨pre.length, by simp, by rw [← S.len]; simp⟩
      · exact ⟨j, app_cases.2 (.inl h1), app_cases.2 (.inl h2)⟩
    · rintro ⟨j, h1, h2⟩
      rcases app_cases.1 h1 with h1 | ⟨h1, e1⟩ <;> rcases app_cases.1 h2 with h2 | ⟨h2, e2⟩
      · exact .inr ⟨j, h1, h2⟩
      · have := (List.getElem?_eq_some_iff.1 h1).1; rw [S.len] at h2; omega
      · have := (List.getElem?_eq_some_iff.1 h2).1; rw [S.len] at this; omega
      · exact .inl ⟨e1.symm, e2.symm⟩
  · intro q k hq
    rcases (look q k).1 hq with ⟨-, rfl⟩ | hq
    · omega
    · have := S.lt q k hq; omega
  · intro q r k hq hr
    rcases (look q k).1 hq with ⟨e1, e2⟩ | hq' <;> rcases (look r k).1 hr with ⟨e3, e4⟩ | hr'
    · rw [e1, e3]
    · have := S.lt r k hr'; omega
    · have := S.lt q k hq'; omega
    · exact S.inj q r k hq' hr'
  · intro k
    rw [S.dups]
    constructor
    · rintro ⟨h1, j, h2, h3⟩
      refine ⟨by simp; omega, j, h2, ?_⟩
      rw [List.getElem?_append_left (by omega), List.getElem?_append_left h1]; exact h3
    · rintro ⟨h1, j, h2, h3⟩
      simp at h1
      by_cases hk : k < pre.length
      · rw [List.getElem?_append_left (by omega), List.getElem?_append_left hk] at h3
        exact ⟨hk, j, h2, h3⟩
      · obtain rfl : k = pre.length := by omega
        exfalso
        rw [List.getElem?_append_left h2] at h3
        simp at h3
        exact new (List.mem_of_getElem? h3)
  · intro k hk hd
    simp at hk
    by_cases hk' : k < pre.length
    · exact app_cases.2 (.inl (S.number k hk' hd))
    · obtain rfl : k = pre.length := by omega
      rw [filter_all dl le_rfl]
      refine app_cases.2 (.inr ⟨S.len.symm, ?_⟩)
      have := S.out; omega

theorem Seen.again {pre : List V} {map dup : List Nat} {o : Nat} {d : List (V × Nat)} (S : Seen pre map dup o d) {p : V} {k : Nat} (h : d.lookup p = some k) :
    Seen (pre ++ [p]) (map ++ [k]) (dup ++ [pre.length]) o d := by
  obtain ⟨j0, hj0, hm0⟩ := (S.dict p k).1 h
  have j0l := (List.getElem?_eq_some_iff.1 hj0).1
  have dl : ∀ x ∈ dup, x < pre.length := fun x hx => ((S.dups x).1 hx).1
  refine ⟨by simp [S.len], ?_, S.lt, S.inj, ?_, ?_, ?_, by have := S.out; simp; omega⟩
  · intro q r
    rw [S.dict]
    constructor
    · rintro ⟨j, h1, h2⟩
      exact ⟨j, app_cases.2 (.inl h1), app_cases.2 (.inl h2)⟩
    · rintro ⟨j, h1, h2⟩
      rcases app_cases.1 h1 with h1 | ⟨h1, e1⟩ <;> rcases app_cases.1 h2 with h2 | ⟨h2, e2⟩
      · exact ⟨j, h1, h2⟩
      · have := (List.getElem?_eq_some_iff.1 h1).1; rw [S.len] at h2; omega
      · have := (List.getElem?_eq_some_iff.1 h2).1; rw [S.len] at this; omega
      · subst e1 e2; exact ⟨j0, hj0, hm0⟩
  · intro x
    rw [List.mem_append, S.dups, List.mem_singleton]
    constructor
    · rintro (⟨h1, j, h2, h3⟩ | rfl)
      · refine ⟨by simp; omega, j, h2, ?_⟩
        rw [List.getElem?_append_left (by omega), List.getElem?_append_left h1]; exact h3
      · refine ⟨by simp, j0, j0l, ?_⟩
        rw [List.getElem?_append_left j0l, hj0]; simp
    · rintro ⟨h1, j, h2, h3⟩
      simp at h1
      by_cases hk : x < pre.length
      · rw [List.getElem?_append_left (by omega), List.getElem?_append_left hk] at h3
        exact .inl ⟨hk, j, h2, h3⟩
      · exact .inr (by omega)
  · rw [List.pairwise_append]
    refine ⟨S.sorted, List.pairwise_singleton _ _, fun a ha b hb => ?_⟩
    rw [List.mem_singleton] at hb
    subst hb
    exact dl a ha
  · intro x hx hd
    rw [List.mem_append, List.mem_singleton, not_or] at hd
    simp at hx
    have hx' : x < pre.length := by omega
    refine app_cases.2 (.inl ?_)
    rw [S.number x hx' hd.1, List.filter_append]
    have : [pre.length].filter (· < x) = [] := by
      rw [List.filter_eq_nil_iff]; intro a ha; rw [List.mem_singleton] at ha; subst ha; simp; omega
    rw [this, List.append_nil]

theorem findLoop_seen (ps : List V) : ∀ (pre : List V) (map dup : List Nat) (o : Nat) (d : List (V × Nat)), Seen pre map dup o d →
    ∃ o' d', Seen (pre ++ ps) (map ++ (findLoop ps pre.length o d).1) (dup ++ (findLoop ps pre.length o d).2) o' d' := by
  induction ps with
  | nil => intro pre map dup o d S; exact ⟨o, d, by simpa [findLoop] using S⟩
  | cons p ps ih =>
    intro pre map dup o d S
    unfold findLoop
    cases h : d.lookup p with
    | none =>
      obtain ⟨o', d', H⟩ := ih _ _ _ _ _ (S.unique h)
      refine ⟨o', d', ?_⟩
      simpa using H
    | some k =>
      obtain ⟨o', d', H⟩ := ih _ _ _ _ _ (S.again h)
      refine ⟨o', d', ?_⟩
      simpa using H

theorem Seen.ties {pre : List V} {map dup : List Nat} {o : Nat} {d : List (V × Nat)} (S : Seen pre map dup o d) : Ties pre map dup := by
  refine ⟨S.len, ?_, S.dups, S.sorted, S.number⟩
  intro i j hi hj
  have ei := List.getElem?_eq_getElem hi
  have ej := List.getElem?_eq_getElem hj
  have mi := List.getElem?_eq_getElem (show i < map.length by rw [S.len]; exact hi)
  have mj := List.getElem?_eq_getElem (show j < map.length by rw [S.len]; exact hj)
  have li := (S.dict _ _).2 ⟨i, ei, mi⟩
  have lj := (S.dict _ _).2 ⟨j, ej, mj⟩
  rw [ei, ej, mi, mj, Option.some.injEq, Option.some.injEq]
  constructor
  · intro h
    rw [← h] at lj
    exact S.inj _ _ _ li lj
  · intro h
    rw [← h, li] at lj
    exact Option.some.inj lj

theorem findDuplicates_ties (pts : List V) : Ties pts (findDuplicates pts).1 (findDuplicates pts).2 := by
  obtain ⟨o, d, S⟩ := findLoop_seen pts [] [] [] 0 [] Seen.nil
  simpa [findDuplicates] using S.ties

theorem no_duplicates {pts : List V} : (findDuplicates pts).2 = [] ↔ pts.Nodup := by
  have T := findDuplicates_ties pts
  rw [List.eq_nil_iff_forall_not_mem, List.nodup_iff_getElem?_ne_getElem?]
  constructor
  · intro h i j hij hj e
    exact h j ((T.dups j).2 ⟨hj, i, hij, e⟩)
  · rintro h k hk
    obtain ⟨h1, j, h2, h3⟩ := (T.dups k).1 hk
    exact h j k h2 h1 h3

variable {K : Type} [Field K] [LinearOrder K]

theorem breakTies_nodup (sq : K → K) {Q : List (V2 K)} (h : Q.Nodup) : breakTies sq Q = some Q := by
  unfold breakTies
  rw [no_duplicates.2 h]
  rfl

theorem breakTies_length {sq : K → K} {Q R : List (V2 K)} (h : breakTies sq Q = some R) : R.length = Q.length := by
  unfold breakTies at h
  have key : ∀ (l : List Nat) (g : Nat → Nat) (Q R : List (V2 K)), l.foldlM (fun R k => (displaced sq R k (g k)).map (fun p => R.set k p)) Q = some R → R.length = Q.length := by
    intro l g
    induction l with
    | nil => intro Q R h; cases h; rfl
    | cons k l ih =>
      intro Q R h
      rw [List.foldlM_cons] at h
      obtain ⟨Q', h1, h2⟩ := Option.bind_eq_some_iff.1 h
      obtain ⟨p, -, rfl⟩ := Option.map_eq_some_iff.1 h1
      rw [ih _ _ h2, List.length_set]
  exact key _ (fun k => (findDuplicates Q).1.getD k 0) _ _ h

end Mcut.Cdt
