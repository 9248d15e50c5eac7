import Mathlib.Tactic.FinCases
import Verif.Lemmas.C85Geom

/-! # Lemmas for C85: sides of triangles, and how they change -/
namespace Mcut.Cdt
open Mcut.Geom
variable {K : Type} [Field K] [LinearOrder K] [IsStrictOrderedRing K]

/-- The triangle has the side from `a` to `b`, with `n` across it. -/
def HasT (t : Tri) (a b : Nat) (n : Option Nat) : Prop := ∃ i : Fin 3, t.v i = a ∧ t.v (i + 1) = b ∧ t.n i = n

def Has (ts : List Tri) (k a b : Nat) (n : Option Nat) : Prop := ∃ t : Tri, ts[k]? = some t ∧ HasT t a b n

def Corner (ts : List Tri) (k v : Nat) : Prop := ∃ (t : Tri) (i : Fin 3), ts[k]? = some t ∧ t.v i = v

def Ccw (pos : Nat → V2 K) (t : Tri) : Prop := 0 < orient2d (pos (t.v 0)) (pos (t.v 1)) (pos (t.v 2))

theorem hasT_at (t : Tri) (i : Fin 3) (a b : Nat) (n : Option Nat) :
    HasT t a b n ↔ (a = t.v i ∧ b = t.v (i + 1) ∧ n = t.n i) ∨ (a = t.v (i + 1) ∧ b = t.v (i + 2) ∧ n = t.n (i + 1)) ∨ (a = t.v (i + 2) ∧ b = t.v i ∧ n = t.n (i + 2)) := by
  constructor
  · rintro ⟨j, rfl, rfl, rfl⟩
    fin_cases i <;> fin_cases j <;> simp
  · rintro (⟨rfl, rfl, rfl⟩ | ⟨rfl, rfl, rfl⟩ | ⟨rfl, rfl, rfl⟩)
    · exact ⟨i, rfl, rfl, rfl⟩
    · exact ⟨i + 1, rfl, by congr 1; fin_cases i <;> rfl, rfl⟩
    · exact ⟨i + 2, rfl, by congr 1; fin_cases i <;> rfl, rfl⟩

theorem hasT_mk (p q r : Nat) (l m o : Option Nat) (a b : Nat) (n : Option Nat) :
    HasT ⟨![p, q, r], ![l, m, o]⟩ a b n ↔ (a = p ∧ b = q ∧ n = l) ∨ (a = q ∧ b = r ∧ n = m) ∨ (a = r ∧ b = p ∧ n = o) := hasT_at _ 0 a b n

theorem ccw_at {pos : Nat → V2 K} {t : Tri} (h : Ccw pos t) (i : Fin 3) : 0 < orient2d (pos (t.v i)) (pos (t.v (i + 1))) (pos (t.v (i + 2))) := by
  unfold Ccw at h
  have h1 := orient_rot (pos (t.v 0)) (pos (t.v 1)) (pos (t.v 2))
  have h2 := orient_rot (pos (t.v 1)) (pos (t.v 2)) (pos (t.v 0))
  fin_cases i
  · exact h
  · show 0 < orient2d (pos (t.v 1)) (pos (t.v 2)) (pos (t.v 0)); rw [h1]; exact h
  · show 0 < orient2d (pos (t.v 2)) (pos (t.v 0)) (pos (t.v 1)); rw [h2, h1]; exact h

theorem orient_pos_ne {a b c : V2 K} (h : 0 < orient2d a b c) : a ≠ b ∧ b ≠ c ∧ a ≠ c := by
  refine ⟨?_, ?_, ?_⟩ <;> rintro rfl <;> unfold orient2d at h <;> simp at h
  · rw [mul_comm] at h; simp at h

theorem ccw_ne {pos : Nat → V2 K} {t : Tri} (h : Ccw pos t) (i : Fin 3) : t.v i ≠ t.v (i + 1) ∧ t.v (i + 1) ≠ t.v (i + 2) ∧ t.v i ≠ t.v (i + 2) := by
  obtain ⟨h1, h2, h3⟩ := orient_pos_ne (ccw_at h i)
  exact ⟨fun e => h1 (by rw [e]), fun e => h2 (by rw [e]), fun e => h3 (by rw [e])⟩

/-- The sides are mutual, and triangles are counter-clockwise. -/
structure Mutual (pos : Nat → V2 K) (ts : List Tri) : Prop where
  ccw : ∀ t ∈ ts, Ccw pos t
  sym : ∀ k k' a b, Has ts k a b (some k') → Has ts k' b a (some k)

variable {pos : Nat → V2 K} {ts : List Tri}

theorem Mutual.ccw_get (h : Mutual pos ts) {k : Nat} {t : Tri} (e : ts[k]? = some t) : Ccw pos t := h.ccw t (List.mem_of_getElem? e)

/-- With the numbers of the corners and neighbours. -/
theorem Mutual.other (h : Mutual pos ts) {k k' : Nat} {t : Tri} {i : Fin 3} (e : ts[k]? = some t) (hn : t.n i = some k') :
    ∃ (t' : Tri) (j : Fin 3), ts[k']? = some t' ∧ t'.n j = some k ∧ t'.v j = t.v (i + 1) ∧ t'.v (j + 1) = t.v i := by
  obtain ⟨t', e', j, h1, h2, h3⟩ := h.sym k k' (t.v i) (t.v (i + 1)) ⟨t, e, i, rfl, rfl, hn⟩
  exact ⟨t', j, e', h3, h1, h2⟩

theorem Mutual.ne (h : Mutual pos ts) {k k' : Nat} {t : Tri} {i : Fin 3} (e : ts[k]? = some t) (hn : t.n i = some k') : k ≠ k' := by
  rintro rfl
  obtain ⟨t', j, e', -, h1, h2⟩ := h.other e hn
  rw [e] at e'
  cases Option.some.inj e'
  have d := ccw_ne (h.ccw_get e)
  have d0 := d 0; have d1 := d 1; have d2 := d 2
  fin_cases i <;> fin_cases j <;> simp_all

theorem Mutual.uniq (h : Mutual pos ts) {k k' : Nat} {t : Tri} {i i' : Fin 3} (e : ts[k]? = some t) (hn : t.n i = some k') (hn' : t.n i' = some k') : i = i' := by
  obtain ⟨t', j, e', -, h1, h2⟩ := h.other e hn
  obtain ⟨t'', j', e'', -, h1', h2'⟩ := h.other e hn'
  rw [e'] at e''
  cases Option.some.inj e''
  by_contra hi
  have d := ccw_ne (h.ccw_get e)
  have d0 := d 0
  have c := ccw_at (h.ccw_get e) i
  have c' := ccw_at (h.ccw_get e') j
  have hjj : j ≠ j' := by
    rintro rfl
    apply hi
    rw [h1] at h1'
    have d1 := d 1; have d2 := d 2
    fin_cases i <;> fin_cases i' <;> simp_all
  -- the third corner is the same, too
  have key : t'.v (j + 2) = t.v (i + 2) := by
    have dd := ccw_ne (h.ccw_get e') 
    have dd0 := dd 0
    clear c c'
    fin_cases i <;> fin_cases i' <;> fin_cases j <;> fin_cases j' <;> simp_all
  rw [h1, h2, key, orient_swap] at c'
  linarith

theorem nbrIndex_some {t : Tri} {k : Nat} {i : Fin 3} (hn : t.n i = some k) (u : ∀ j, t.n j = some k → j = i) : nbrIndex t k = some i := by
  have h : (fun j => t.n j == some k) = fun j => decide (j = i) := by
    funext j
    by_cases hj : j = i
    · subst hj; simp [hn]
    · have : t.n j ≠ some k := fun e => hj (u j e)
      simp [hj, this]
  unfold nbrIndex
  rw [h]
  clear h u hn
  revert i; decide

theorem Mutual.index (h : Mutual pos ts) {k k' : Nat} {t : Tri} {i : Fin 3} (e : ts[k]? = some t) (hn : t.n i = some k') : nbrIndex t k' = some i :=
  nbrIndex_some hn (fun _ hj => h.uniq e hj hn)

/-- The third corners of two neighbours are different. -/
theorem Mutual.across (h : Mutual pos ts) {k k' : Nat} {t t' : Tri} {i j : Fin 3} (e : ts[k]? = some t) (e' : ts[k']? = some t') (h1 : t'.v j = t.v (i + 1)) (h2 : t'.v (j + 1) = t.v i) :
    t.v (i + 2) ≠ t'.v (j + 2) := by
  intro he
  have c := ccw_at (h.ccw_get e) i
  have c' := ccw_at (h.ccw_get e') j
  rw [h1, h2, ← he, orient_swap] at c'
  linarith

/-! ## Changing a neighbour -/

def swapN (old new : Nat) (n : Option Nat) : Option Nat := if n = some old then some new else n

/-- `changeNbr` as a total function. -/
def ren (ts : List Tri) (x : Option Nat) (old new : Nat) : List Tri :=
  match x with
  | none => ts
  | some k => match ts[k]? with
    | none => ts
    | some t => ts.set k ⟨t.v, fun i => swapN old new (t.n i)⟩

theorem changeNbr_eq {x : Option Nat} {old new : Nat} (h : ∀ y, x = some y → ∃ (t : Tri) (i : Fin 3), ts[y]? = some t ∧ t.n i = some old ∧ ∀ j, t.n j = some old → j = i) :
    changeNbr ts x old new = some (ren ts x old new) := by
  cases x with
  | none => rfl
  | some y =>
    obtain ⟨t, i, e, hn, u⟩ := h y rfl
    have hf : (fun j => swapN old new (t.n j)) = Function.update t.n i (some new) := by
      funext j
      unfold swapN
      by_cases hj : j = i
      · subst hj; rw [if_pos hn, Function.update_self]
      · rw [if_neg (fun hh => hj (u j hh)), Function.update_of_ne hj]
    simp only [changeNbr, ren, e, Option.bind_some, nbrIndex_some hn u, Option.map_some, hf]

theorem ren_length (ts : List Tri) (x : Option Nat) (old new : Nat) : (ren ts x old new).length = ts.length := by
  unfold ren; split
  · rfl
  · split
    · rfl
    · rw [List.length_set]

theorem ren_get (ts : List Tri) (x : Option Nat) (old new y : Nat) :
    (ren ts x old new)[y]? = (ts[y]?).map (fun t => if x = some y then ⟨t.v, fun i => swapN old new (t.n i)⟩ else t) := by
  cases x with
  | none => simp [ren]
  | some k =>
    by_cases hk : k = y
    · subst hk
      cases e : ts[k]? with
      | none => simp [ren, e]
      | some t =>
        have hk' : k < ts.length := (List.getElem?_eq_some_iff.1 e).1
        simp only [ren, e, if_true, Option.map_some]
        rw [List.getElem?_set_self hk']
    · have : (ren ts (some k) old new)[y]? = ts[y]? := by
        unfold ren; simp only
        split
        · rfl
        · rw [List.getElem?_set_ne hk]
      rw [this]
      cases ts[y]? with
      | none => rfl
      | some t => simp [hk]

theorem ren_verts (ts : List Tri) (x : Option Nat) (old new : Nat) : (ren ts x old new).map Tri.v = ts.map Tri.v := by
  apply List.ext_getElem?
  intro y
  rw [List.getElem?_map, List.getElem?_map, ren_get]
  cases ts[y]? with
  | none => rfl
  | some t => simp only [Option.map_some]; split <;> rfl

theorem has_ren (ts : List Tri) (x : Option Nat) (old new y a b : Nat) (n : Option Nat) :
    Has (ren ts x old new) y a b n ↔ ∃ n0, Has ts y a b n0 ∧ n = if x = some y then swapN old new n0 else n0 := by
  unfold Has
  rw [ren_get]
  cases e : ts[y]? with
  | none => simp
  | some t =>
    simp only [Option.map_some, Option.some.injEq, exists_eq_left']
    by_cases hx : x = some y
    · simp only [if_pos hx]
      constructor
      · rintro ⟨i, h1, h2, h3⟩; exact ⟨t.n i, ⟨i, h1, h2, rfl⟩, h3.symm⟩
      · rintro ⟨n0, ⟨i, h1, h2, rfl⟩, rfl⟩; exact ⟨i, h1, h2, rfl⟩
    · simp only [if_neg hx]
      constructor
      · rintro h; exact ⟨n, h, rfl⟩
      · rintro ⟨n0, h, rfl⟩; exact h

/-! ## Replacing some triangles -/

/-- `P`: the triangles that are replaced, `Q`: the new ones; `F a b n p q`: the side from `a` to `b` was a side of `p` and is one of `q`; `R x n`: the new neighbour of `x`. -/
structure Replaced (ts ts' : List Tri) (P Q : Nat → Prop) (F : Nat → Nat → Option Nat → Nat → Nat → Prop) (R : Nat → Option Nat → Option Nat) : Prop where
  sub : ∀ p, P p → Q p
  fresh : ∀ q, Q q → ¬P q → ts[q]? = none
  outer : ∀ a b n p q, F a b n p q → P p ∧ Q q ∧ Has ts p a b n ∧ Has ts' q a b n ∧ ∀ x, n = some x → ¬Q x ∧ R x (some p) = some q
  old : ∀ p a b n, P p → Has ts p a b n → (∃ q, F a b n p q) ∨ ∃ p', P p' ∧ n = some p'
  new : ∀ q a b n, Q q → Has ts' q a b n → (∃ p, F a b n p q) ∨ ∃ q', n = some q' ∧ Has ts' q' b a (some q)
  rest : ∀ x a b n, ¬Q x → (Has ts' x a b n ↔ ∃ n0, Has ts x a b n0 ∧ n = R x n0)
  same : ∀ x n, (∀ p, P p → n ≠ some p) → R x n = n

theorem Replaced.sym {ts' : List Tri} {P Q F R} (r : Replaced ts ts' P Q F R) (h : ∀ k k' a b, Has ts k a b (some k') → Has ts k' b a (some k)) :
    ∀ k k' a b, Has ts' k a b (some k') → Has ts' k' b a (some k) := by
  intro k k' a b hs
  by_cases hk : Q k
  · rcases r.new k a b _ hk hs with ⟨p, hF⟩ | ⟨q', e, hq⟩
    · obtain ⟨hp, -, ho, -, hx⟩ := r.outer _ _ _ _ _ hF
      obtain ⟨hq, hr⟩ := hx k' rfl
      exact (r.rest k' b a _ hq).2 ⟨some p, h _ _ _ _ ho, hr.symm⟩
    · cases Option.some.inj e; exact hq
  · obtain ⟨n0, h0, e⟩ := (r.rest k a b _ hk).1 hs
    by_cases hp : ∃ p, P p ∧ n0 = some p
    · obtain ⟨p, hp, rfl⟩ := hp
      rcases r.old p b a _ hp (h _ _ _ _ h0) with ⟨q, hF⟩ | ⟨p', hp', e'⟩
      · obtain ⟨-, -, -, hn, hx⟩ := r.outer _ _ _ _ _ hF
        rw [(hx k rfl).2] at e
        cases Option.some.inj e
        exact hn
      · cases Option.some.inj e'; exact absurd (r.sub _ hp') hk
    · rw [r.same k n0 (fun p hp' e' => hp ⟨p, hp', e'⟩)] at e
      subst e
      have hb := h _ _ _ _ h0
      have hk' : ¬Q k' := by
        intro hq
        by_cases hpk : P k'
        · exact hp ⟨k', hpk, rfl⟩
        · obtain ⟨t, e, -⟩ := hb
          rw [r.fresh k' hq hpk] at e; cases e
      refine (r.rest k' b a _ hk').2 ⟨some k, hb, (r.same k' _ ?_).symm⟩
      intro p hp' e'
      cases Option.some.inj e'
      exact hk (r.sub _ hp')

theorem Replaced.border {ts' : List Tri} {P Q F R} (r : Replaced ts ts' P Q F R) (h : ∀ k k' a b, Has ts k a b (some k') → Has ts k' b a (some k)) {B : Nat → Nat → Prop} (hB : ∀ k a b, Has ts k a b none → B a b) :
    ∀ k a b, Has ts' k a b none → B a b := by
  intro k a b hs
  by_cases hk : Q k
  · rcases r.new k a b _ hk hs with ⟨p, hF⟩ | ⟨q', e, hq⟩
    · exact hB _ _ _ (r.outer _ _ _ _ _ hF).2.2.1
    · cases e
  · obtain ⟨n0, h0, e⟩ := (r.rest k a b _ hk).1 hs
    by_cases hp : ∃ p, P p ∧ n0 = some p
    · obtain ⟨p, hp, rfl⟩ := hp
      rcases r.old p b a _ hp (h _ _ _ _ h0) with ⟨q, hF⟩ | ⟨p', hp', e'⟩
      · obtain ⟨-, -, -, hn, hx⟩ := r.outer _ _ _ _ _ hF
        rw [(hx k rfl).2] at e
        cases e
      · cases Option.some.inj e'; exact absurd (r.sub _ hp') hk
    · rw [r.same k n0 (fun p hp' e' => hp ⟨p, hp', e'⟩)] at e
      subst e
      exact hB _ _ _ h0

end Mcut.Cdt
