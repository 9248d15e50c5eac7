import Verif.Lemmas.C85Tri

/-! # Lemmas for C85: the three operations, combinatorially -/
namespace Mcut.Cdt

variable {ts ts' : List Tri}

/-- The neighbours after two renamings. -/
def twoRen (x1 : Option Nat) (o1 w1 : Nat) (x2 : Option Nat) (o2 w2 : Nat) (x : Nat) (n : Option Nat) : Option Nat :=
  let n' := if x1 = some x then swapN o1 w1 n else n
  if x2 = some x then swapN o2 w2 n' else n'

theorem swapN_self (o w : Nat) : swapN o w (some o) = some w := by unfold swapN; rw [if_pos rfl]

theorem swapN_ne {o w : Nat} {n : Option Nat} (h : n ≠ some o) : swapN o w n = n := by unfold swapN; rw [if_neg h]

theorem twoRen_same {x1 : Option Nat} {o1 w1 : Nat} {x2 : Option Nat} {o2 w2 x : Nat} {n : Option Nat} (h1 : n ≠ some o1) (h2 : n ≠ some o2) : twoRen x1 o1 w1 x2 o2 w2 x n = n := by
  unfold twoRen; simp only [swapN_ne h1]
  split <;> split <;> first | rfl | exact swapN_ne h2

theorem has_two (ts : List Tri) (x1 : Option Nat) (o1 w1 : Nat) (x2 : Option Nat) (o2 w2 y a b : Nat) (n : Option Nat) :
    Has (ren (ren ts x1 o1 w1) x2 o2 w2) y a b n ↔ ∃ n0, Has ts y a b n0 ∧ n = twoRen x1 o1 w1 x2 o2 w2 y n0 := by
  rw [has_ren]
  constructor
  · rintro ⟨m, hm, rfl⟩
    obtain ⟨m', hm', rfl⟩ := (has_ren ..).1 hm
    exact ⟨m', hm', rfl⟩
  · rintro ⟨m, hm, rfl⟩
    exact ⟨_, (has_ren ..).2 ⟨m, hm, rfl⟩, rfl⟩

theorem has_two_ne {ts : List Tri} {x1 : Option Nat} {o1 w1 : Nat} {x2 : Option Nat} {o2 w2 y a b : Nat} {n : Option Nat} (h1 : x1 ≠ some y) (h2 : x2 ≠ some y) :
    Has (ren (ren ts x1 o1 w1) x2 o2 w2) y a b n ↔ Has ts y a b n := by
  rw [has_two]
  unfold twoRen
  simp only [if_neg h1, if_neg h2]
  exact ⟨fun ⟨m, hm, e⟩ => e ▸ hm, fun h => ⟨n, h, rfl⟩⟩

/-- Four different corners are too many. -/
theorem four {k a b c d : Nat} (ha : Corner ts k a) (hb : Corner ts k b) (hc : Corner ts k c) (hd : Corner ts k d) (h1 : a ≠ b) (h2 : a ≠ c) (h3 : a ≠ d) (h4 : b ≠ c) (h5 : b ≠ d) (h6 : c ≠ d) : False := by
  obtain ⟨t, i, e, rfl⟩ := ha
  obtain ⟨t', j, e', rfl⟩ := hb
  rw [e] at e'; cases Option.some.inj e'
  obtain ⟨t', l, e', rfl⟩ := hc
  rw [e] at e'; cases Option.some.inj e'
  obtain ⟨t', m, e', rfl⟩ := hd
  rw [e] at e'; cases Option.some.inj e'
  have : ∀ i j l m : Fin 3, i = j ∨ i = l ∨ i = m ∨ j = l ∨ j = m ∨ l = m := by decide
  rcases this i j l m with rfl | rfl | rfl | rfl | rfl | rfl <;> contradiction

theorem Has.corners {k a b : Nat} {n : Option Nat} (h : Has ts k a b n) : Corner ts k a ∧ Corner ts k b := by
  obtain ⟨t, e, i, rfl, rfl, -⟩ := h
  exact ⟨⟨t, i, e, rfl⟩, ⟨t, i + 1, e, rfl⟩⟩

theorem flip_replaced {k k' v1 v2 v3 v4 : Nat} {n1 n2 n3 n4 : Option Nat} (sym : ∀ k k' a b, Has ts k a b (some k') → Has ts k' b a (some k))
    (hk : ∀ a b n, Has ts k a b n ↔ (a = v1 ∧ b = v2 ∧ n = n1) ∨ (a = v2 ∧ b = v4 ∧ n = some k') ∨ (a = v4 ∧ b = v1 ∧ n = n3))
    (hk' : ∀ a b n, Has ts k' a b n ↔ (a = v3 ∧ b = v4 ∧ n = n4) ∨ (a = v4 ∧ b = v2 ∧ n = some k) ∨ (a = v2 ∧ b = v3 ∧ n = n2))
    (nk : ∀ a b n, Has ts' k a b n ↔ (a = v4 ∧ b = v1 ∧ n = n3) ∨ (a = v1 ∧ b = v3 ∧ n = some k') ∨ (a = v3 ∧ b = v4 ∧ n = n4))
    (nk' : ∀ a b n, Has ts' k' a b n ↔ (a = v2 ∧ b = v3 ∧ n = n2) ∨ (a = v3 ∧ b = v1 ∧ n = some k) ∨ (a = v1 ∧ b = v2 ∧ n = n1))
    (hr : ∀ y a b n, y ≠ k → y ≠ k' → (Has ts' y a b n ↔ ∃ n0, Has ts y a b n0 ∧ n = twoRen n1 k k' n4 k' k y n0))
    (kk : k ≠ k') (e1 : n1 ≠ some k ∧ n1 ≠ some k') (e2 : n2 ≠ some k ∧ n2 ≠ some k') (e3 : n3 ≠ some k ∧ n3 ≠ some k') (e4 : n4 ≠ some k ∧ n4 ≠ some k')
    (e13 : ∀ x, n1 = some x → n3 ≠ some x) (e24 : ∀ x, n2 = some x → n4 ≠ some x)
    (d : v1 ≠ v2 ∧ v1 ≠ v3 ∧ v1 ≠ v4 ∧ v2 ≠ v3 ∧ v2 ≠ v4 ∧ v3 ≠ v4) :
    Replaced ts ts' (fun p => p = k ∨ p = k') (fun p => p = k ∨ p = k')
      (fun a b n p q => (a = v1 ∧ b = v2 ∧ n = n1 ∧ p = k ∧ q = k') ∨ (a = v4 ∧ b = v1 ∧ n = n3 ∧ p = k ∧ q = k) ∨ (a = v3 ∧ b = v4 ∧ n = n4 ∧ p = k' ∧ q = k) ∨ (a = v2 ∧ b = v3 ∧ n = n2 ∧ p = k' ∧ q = k'))
      (twoRen n1 k k' n4 k' k) := by
  have e14 : ∀ x, n1 = some x → n4 ≠ some x := by
    intro x h1 h4
    have c1 := (sym k x v1 v2 ((hk _ _ _).2 (.inl ⟨rfl, rfl, h1.symm⟩))).corners
    have c4 := (sym k' x v3 v4 ((hk' _ _ _).2 (.inl ⟨rfl, rfl, h4.symm⟩))).corners
    exact four c1.2 c1.1 c4.2 c4.1 d.1 d.2.1 d.2.2.1 d.2.2.2.1 d.2.2.2.2.1 d.2.2.2.2.2
  refine ⟨fun p h => h, fun q h hn => absurd h hn, ?_, ?_, ?_, ?_, ?_⟩
  · rintro a b n p q (⟨rfl, rfl, rfl, rfl, rfl⟩ | ⟨rfl, rfl, rfl, rfl, rfl⟩ | ⟨rfl, rfl, rfl, rfl, rfl⟩ | ⟨rfl, rfl, rfl, rfl, rfl⟩)
    · refine ⟨.inl rfl, .inr rfl, (hk _ _ _).2 (.inl ⟨rfl, rfl, rfl⟩), (nk' _ _ _).2 (.inr (.inr ⟨rfl, rfl, rfl⟩)), ?_⟩
      intro x hx
      refine ⟨?_, ?_⟩
      · rintro (rfl | rfl)
        · exact e1.1 hx
        · exact e1.2 hx
      · unfold twoRen; simp only [if_pos hx, if_neg (e14 x hx), swapN_self]
    · refine ⟨.inl rfl, .inl rfl, (hk _ _ _).2 (.inr (.inr ⟨rfl, rfl, rfl⟩)), (nk _ _ _).2 (.inl ⟨rfl, rfl, rfl⟩), ?_⟩
      intro x hx
      refine ⟨?_, ?_⟩
      · rintro (rfl | rfl)
        · exact e3.1 hx
        · exact e3.2 hx
      · have : n1 ≠ some x := fun h => e13 x h hx
        unfold twoRen; simp only [if_neg this]
        split
        · exact swapN_ne (by simpa using kk)
        · rfl
    · refine ⟨.inr rfl, .inl rfl, (hk' _ _ _).2 (.inl ⟨rfl, rfl, rfl⟩), (nk _ _ _).2 (.inr (.inr ⟨rfl, rfl, rfl⟩)), ?_⟩
      intro x hx
      refine ⟨?_, ?_⟩
      · rintro (rfl | rfl)
        · exact e4.1 hx
        · exact e4.2 hx
      · have : n1 ≠ some x := fun h => e14 x h hx
        unfold twoRen; simp only [if_neg this, if_pos hx, swapN_self]
    · refine ⟨.inr rfl, .inr rfl, (hk' _ _ _).2 (.inr (.inr ⟨rfl, rfl, rfl⟩)), (nk' _ _ _).2 (.inl ⟨rfl, rfl, rfl⟩), ?_⟩
      intro x hx
      refine ⟨?_, ?_⟩
      · rintro (rfl | rfl)
        · exact e2.1 hx
        · exact e2.2 hx
      · have : n4 ≠ some x := e24 x hx
        unfold twoRen; simp only [if_neg this]
        split
        · exact swapN_ne (by simpa using kk.symm)
        · rfl
  · rintro p a b n (rfl | rfl) h
    · rcases (hk _ _ _).1 h with ⟨rfl, rfl, rfl⟩ | ⟨rfl, rfl, rfl⟩ | ⟨rfl, rfl, rfl⟩
      · exact .inl ⟨_, .inl ⟨rfl, rfl, rfl, rfl, rfl⟩⟩
      · exact .inr ⟨_, .inr rfl, rfl⟩
      · exact .inl ⟨_, .inr (.inl ⟨rfl, rfl, rfl, rfl, rfl⟩)⟩
    · rcases (hk' _ _ _).1 h with ⟨rfl, rfl, rfl⟩ | ⟨rfl, rfl, rfl⟩ | ⟨rfl, rfl, rfl⟩
      · exact .inl ⟨_, .inr (.inr (.inl ⟨rfl, rfl, rfl, rfl, rfl⟩))⟩
      · exact .inr ⟨_, .inl rfl, rfl⟩
      · exact .inl ⟨_, .inr (.inr (.inr ⟨rfl, rfl, rfl, rfl, rfl⟩))⟩
  · rintro q a b n (rfl | rfl) h
    · rcases (nk _ _ _).1 h with ⟨rfl, rfl, rfl⟩ | ⟨rfl, rfl, rfl⟩ | ⟨rfl, rfl, rfl⟩
      · exact .inl ⟨_, .inr (.inl ⟨rfl, rfl, rfl, rfl, rfl⟩)⟩
      · exact .inr ⟨_, rfl, (nk' _ _ _).2 (.inr (.inl ⟨rfl, rfl, rfl⟩))⟩
      · exact .inl ⟨_, .inr (.inr (.inl ⟨rfl, rfl, rfl, rfl, rfl⟩))⟩
    · rcases (nk' _ _ _).1 h with ⟨rfl, rfl, rfl⟩ | ⟨rfl, rfl, rfl⟩ | ⟨rfl, rfl, rfl⟩
      · exact .inl ⟨_, .inr (.inr (.inr ⟨rfl, rfl, rfl, rfl, rfl⟩))⟩
      · exact .inr ⟨_, rfl, (nk _ _ _).2 (.inr (.inl ⟨rfl, rfl, rfl⟩))⟩
      · exact .inl ⟨_, .inl ⟨rfl, rfl, rfl, rfl, rfl⟩⟩
  · intro x a b n hx
    exact hr x a b n (fun h => hx (.inl h)) (fun h => hx (.inr h))
  · intro x n h
    exact twoRen_same (h k (.inl rfl)) (h k' (.inr rfl))

theorem in_replaced {k k1 k2 v0 v1 v2 v : Nat} {n0 n1 n2 : Option Nat}
    (hk : ∀ a b n, Has ts k a b n ↔ (a = v0 ∧ b = v1 ∧ n = n0) ∨ (a = v1 ∧ b = v2 ∧ n = n1) ∨ (a = v2 ∧ b = v0 ∧ n = n2))
    (nk : ∀ a b n, Has ts' k a b n ↔ (a = v0 ∧ b = v1 ∧ n = n0) ∨ (a = v1 ∧ b = v ∧ n = some k1) ∨ (a = v ∧ b = v0 ∧ n = some k2))
    (nk1 : ∀ a b n, Has ts' k1 a b n ↔ (a = v1 ∧ b = v2 ∧ n = n1) ∨ (a = v2 ∧ b = v ∧ n = some k2) ∨ (a = v ∧ b = v1 ∧ n = some k))
    (nk2 : ∀ a b n, Has ts' k2 a b n ↔ (a = v2 ∧ b = v0 ∧ n = n2) ∨ (a = v0 ∧ b = v ∧ n = some k) ∨ (a = v ∧ b = v2 ∧ n = some k1))
    (hr : ∀ y a b n, y ≠ k → y ≠ k1 → y ≠ k2 → (Has ts' y a b n ↔ ∃ n0, Has ts y a b n0 ∧ n = twoRen n1 k k1 n2 k k2 y n0))
    (f1 : ts[k1]? = none) (f2 : ts[k2]? = none) (h0 : n0 ≠ some k) (h1 : n1 ≠ some k) (h2 : n2 ≠ some k)
    (g : ∀ x, n0 = some x ∨ n1 = some x ∨ n2 = some x → x ≠ k1 ∧ x ≠ k2) (kk : k ≠ k1)
    (e01 : ∀ x, n0 = some x → n1 ≠ some x) (e02 : ∀ x, n0 = some x → n2 ≠ some x) (e12 : ∀ x, n1 = some x → n2 ≠ some x) :
    Replaced ts ts' (fun p => p = k) (fun p => p = k ∨ p = k1 ∨ p = k2)
      (fun a b n p q => (a = v0 ∧ b = v1 ∧ n = n0 ∧ p = k ∧ q = k) ∨ (a = v1 ∧ b = v2 ∧ n = n1 ∧ p = k ∧ q = k1) ∨ (a = v2 ∧ b = v0 ∧ n = n2 ∧ p = k ∧ q = k2))
      (twoRen n1 k k1 n2 k k2) := by
  refine ⟨fun p h => .inl h, ?_, ?_, ?_, ?_, ?_, ?_⟩
  · rintro q (rfl | rfl | rfl) hn
    · exact absurd rfl hn
    · exact f1
    · exact f2
  · rintro a b n p q (⟨rfl, rfl, rfl, rfl, rfl⟩ | ⟨rfl, rfl, rfl, rfl, rfl⟩ | ⟨rfl, rfl, rfl, rfl, rfl⟩)
    · refine ⟨rfl, .inl rfl, (hk _ _ _).2 (.inl ⟨rfl, rfl, rfl⟩), (nk _ _ _).2 (.inl ⟨rfl, rfl, rfl⟩), ?_⟩
      intro x hx
      refine ⟨?_, ?_⟩
      · rintro (rfl | rfl | rfl)
        · exact h0 hx
        · exact (g _ (.inl hx)).1 rfl
        · exact (g _ (.inl hx)).2 rfl
      · unfold twoRen; simp only [if_neg (e01 x hx), if_neg (e02 x hx)]
    · refine ⟨rfl, .inr (.inl rfl), (hk _ _ _).2 (.inr (.inl ⟨rfl, rfl, rfl⟩)), (nk1 _ _ _).2 (.inl ⟨rfl, rfl, rfl⟩), ?_⟩
      intro x hx
      refine ⟨?_, ?_⟩
      · rintro (rfl | rfl | rfl)
        · exact h1 hx
        · exact (g _ (.inr (.inl hx))).1 rfl
        · exact (g _ (.inr (.inl hx))).2 rfl
      · unfold twoRen; simp only [if_pos hx, if_neg (e12 x hx), swapN_self]
    · refine ⟨rfl, .inr (.inr rfl), (hk _ _ _).2 (.inr (.inr ⟨rfl, rfl, rfl⟩)), (nk2 _ _ _).2 (.inl ⟨rfl, rfl, rfl⟩), ?_⟩
      intro x hx
      refine ⟨?_, ?_⟩
      · rintro (rfl | rfl | rfl)
        · exact h2 hx
        · exact (g _ (.inr (.inr hx))).1 rfl
        · exact (g _ (.inr (.inr hx))).2 rfl
      · have : n1 ≠ some x := fun h => e12 x h hx
        unfold twoRen; simp only [if_neg this, if_pos hx, swapN_self]
  · rintro p a b n rfl h
    rcases (hk _ _ _).1 h with ⟨rfl, rfl, rfl⟩ | ⟨rfl, rfl, rfl⟩ | ⟨rfl, rfl, rfl⟩
    · exact .inl ⟨_, .inl ⟨rfl, rfl, rfl, rfl, rfl⟩⟩
    · exact .inl ⟨_, .inr (.inl ⟨rfl, rfl, rfl, rfl, rfl⟩)⟩
    · exact .inl ⟨_, .inr (.inr ⟨rfl, rfl, rfl, rfl, rfl⟩)⟩
  · rintro q a b n (rfl | rfl | rfl) h
    · rcases (nk _ _ _).1 h with ⟨rfl, rfl, rfl⟩ | ⟨rfl, rfl, rfl⟩ | ⟨rfl, rfl, rfl⟩
      · exact .inl ⟨_, .inl ⟨rfl, rfl, rfl, rfl, rfl⟩⟩
      · exact .inr ⟨_, rfl, (nk1 _ _ _).2 (.inr (.inr ⟨rfl, rfl, rfl⟩))⟩
      · exact .inr ⟨_, rfl, (nk2 _ _ _).2 (.inr (.inl ⟨rfl, rfl, rfl⟩))⟩
    · rcases (nk1 _ _ _).1 h with ⟨rfl, rfl, rfl⟩ | ⟨rfl, rfl, rfl⟩ | ⟨rfl, rfl, rfl⟩
      · exact .inl ⟨_, .inr (.inl ⟨rfl, rfl, rfl, rfl, rfl⟩)⟩
      · exact .inr ⟨_, rfl, (nk2 _ _ _).2 (.inr (.inr ⟨rfl, rfl, rfl⟩))⟩
      · exact .inr ⟨_, rfl, (nk _ _ _).2 (.inr (.inl ⟨rfl, rfl, rfl⟩))⟩
    · rcases (nk2 _ _ _).1 h with ⟨rfl, rfl, rfl⟩ | ⟨rfl, rfl, rfl⟩ | ⟨rfl, rfl, rfl⟩
      · exact .inl ⟨_, .inr (.inr ⟨rfl, rfl, rfl, rfl, rfl⟩)⟩
      · exact .inr ⟨_, rfl, (nk _ _ _).2 (.inr (.inr ⟨rfl, rfl, rfl⟩))⟩
      · exact .inr ⟨_, rfl, (nk1 _ _ _).2 (.inr (.inl ⟨rfl, rfl, rfl⟩))⟩
  · intro x a b n hx
    exact hr x a b n (fun h => hx (.inl h)) (fun h => hx (.inr (.inl h))) (fun h => hx (.inr (.inr h)))
  · intro x n h
    exact twoRen_same (h k rfl) (h k rfl)

theorem on_replaced {k k' a1 a2 v1 v2 v3 v4 v : Nat} {n1 n2 n3 n4 : Option Nat} (sym : ∀ k k' a b, Has ts k a b (some k') → Has ts k' b a (some k))
    (hk : ∀ a b n, Has ts k a b n ↔ (a = v1 ∧ b = v2 ∧ n = n1) ∨ (a = v2 ∧ b = v4 ∧ n = some k') ∨ (a = v4 ∧ b = v1 ∧ n = n4))
    (hk' : ∀ a b n, Has ts k' a b n ↔ (a = v3 ∧ b = v4 ∧ n = n3) ∨ (a = v4 ∧ b = v2 ∧ n = some k) ∨ (a = v2 ∧ b = v3 ∧ n = n2))
    (nk : ∀ a b n, Has ts' k a b n ↔ (a = v1 ∧ b = v2 ∧ n = n1) ∨ (a = v2 ∧ b = v ∧ n = some a2) ∨ (a = v ∧ b = v1 ∧ n = some a1))
    (nk' : ∀ a b n, Has ts' k' a b n ↔ (a = v3 ∧ b = v4 ∧ n = n3) ∨ (a = v4 ∧ b = v ∧ n = some a1) ∨ (a = v ∧ b = v3 ∧ n = some a2))
    (na1 : ∀ a b n, Has ts' a1 a b n ↔ (a = v1 ∧ b = v ∧ n = some k) ∨ (a = v ∧ b = v4 ∧ n = some k') ∨ (a = v4 ∧ b = v1 ∧ n = n4))
    (na2 : ∀ a b n, Has ts' a2 a b n ↔ (a = v3 ∧ b = v ∧ n = some k') ∨ (a = v ∧ b = v2 ∧ n = some k) ∨ (a = v2 ∧ b = v3 ∧ n = n2))
    (hr : ∀ y a b n, y ≠ k → y ≠ k' → y ≠ a1 → y ≠ a2 → (Has ts' y a b n ↔ ∃ n0, Has ts y a b n0 ∧ n = twoRen n4 k a1 n2 k' a2 y n0))
    (f1 : ts[a1]? = none) (f2 : ts[a2]? = none)
    (g : ∀ x, n1 = some x ∨ n2 = some x ∨ n3 = some x ∨ n4 = some x → x ≠ a1 ∧ x ≠ a2) (kk : k ≠ k') (ka : k' ≠ a1)
    (e1 : n1 ≠ some k ∧ n1 ≠ some k') (e2 : n2 ≠ some k ∧ n2 ≠ some k') (e3 : n3 ≠ some k ∧ n3 ≠ some k') (e4 : n4 ≠ some k ∧ n4 ≠ some k')
    (e14 : ∀ x, n1 = some x → n4 ≠ some x) (e23 : ∀ x, n3 = some x → n2 ≠ some x)
    (d : v1 ≠ v2 ∧ v1 ≠ v3 ∧ v1 ≠ v4 ∧ v2 ≠ v3 ∧ v2 ≠ v4 ∧ v3 ≠ v4) :
    Replaced ts ts' (fun p => p = k ∨ p = k') (fun p => p = k ∨ p = k' ∨ p = a1 ∨ p = a2)
      (fun a b n p q => (a = v1 ∧ b = v2 ∧ n = n1 ∧ p = k ∧ q = k) ∨ (a = v4 ∧ b = v1 ∧ n = n4 ∧ p = k ∧ q = a1) ∨ (a = v3 ∧ b = v4 ∧ n = n3 ∧ p = k' ∧ q = k') ∨ (a = v2 ∧ b = v3 ∧ n = n2 ∧ p = k' ∧ q = a2))
      (twoRen n4 k a1 n2 k' a2) := by
  have e24 : ∀ x, n4 = some x → n2 ≠ some x := by
    intro x h1 h4
    have c1 := (sym k x v4 v1 ((hk _ _ _).2 (.inr (.inr ⟨rfl, rfl, h1.symm⟩)))).corners
    have c4 := (sym k' x v2 v3 ((hk' _ _ _).2 (.inr (.inr ⟨rfl, rfl, h4.symm⟩)))).corners
    exact four c1.1 c4.2 c4.1 c1.2 d.1 d.2.1 d.2.2.1 d.2.2.2.1 d.2.2.2.2.1 d.2.2.2.2.2
  refine ⟨fun p h => h.elim .inl (fun h => .inr (.inl h)), ?_, ?_, ?_, ?_, ?_, ?_⟩
  · rintro q (rfl | rfl | rfl | rfl) hn
    · exact absurd (.inl rfl) hn
    · exact absurd (.inr rfl) hn
    · exact f1
    · exact f2
  · rintro a b n p q (⟨rfl, rfl, rfl, rfl, rfl⟩ | ⟨rfl, rfl, rfl, rfl, rfl⟩ | ⟨rfl, rfl, rfl, rfl, rfl⟩ | ⟨rfl, rfl, rfl, rfl, rfl⟩)
    · refine ⟨.inl rfl, .inl rfl, (hk _ _ _).2 (.inl ⟨rfl, rfl, rfl⟩), (nk _ _ _).2 (.inl ⟨rfl, rfl, rfl⟩), ?_⟩
      intro x hx
      refine ⟨?_, ?_⟩
      · rintro (rfl | rfl | rfl | rfl)
        · exact e1.1 hx
        · exact e1.2 hx
        · exact (g _ (.inl hx)).1 rfl
        · exact (g _ (.inl hx)).2 rfl
      · unfold twoRen; simp only [if_neg (e14 x hx)]
        split
        · exact swapN_ne (by simpa using kk)
        · rfl
    · refine ⟨.inl rfl, .inr (.inr (.inl rfl)), (hk _ _ _).2 (.inr (.inr ⟨rfl, rfl, rfl⟩)), (na1 _ _ _).2 (.inr (.inr ⟨rfl, rfl, rfl⟩)), ?_⟩
      intro x hx
      refine ⟨?_, ?_⟩
      · rintro (rfl | rfl | rfl | rfl)
        · exact e4.1 hx
        · exact e4.2 hx
        · exact (g _ (.inr (.inr (.inr hx)))).1 rfl
        · exact (g _ (.inr (.inr (.inr hx)))).2 rfl
      · unfold twoRen; simp only [if_pos hx, if_neg (e24 x hx), swapN_self]
    · refine ⟨.inr rfl, .inr (.inl rfl), (hk' _ _ _).2 (.inl ⟨rfl, rfl, rfl⟩), (nk' _ _ _).2 (.inl ⟨rfl, rfl, rfl⟩), ?_⟩
      intro x hx
      refine ⟨?_, ?_⟩
      · rintro (rfl | rfl | rfl | rfl)
        · exact e3.1 hx
        · exact e3.2 hx
        · exact (g _ (.inr (.inr (.inl hx)))).1 rfl
        · exact (g _ (.inr (.inr (.inl hx)))).2 rfl
      · unfold twoRen; simp only [if_neg (e23 x hx)]
        split
        · exact swapN_ne (by simpa using kk.symm)
        · rfl
    · refine ⟨.inr rfl, .inr (.inr (.inr rfl)), (hk' _ _ _).2 (.inr (.inr ⟨rfl, rfl, rfl⟩)), (na2 _ _ _).2 (.inr (.inr ⟨rfl, rfl, rfl⟩)), ?_⟩
      intro x hx
      refine ⟨?_, ?_⟩
      · rintro (rfl | rfl | rfl | rfl)
        · exact e2.1 hx
        · exact e2.2 hx
        · exact (g _ (.inr (.inl hx))).1 rfl
        · exact (g _ (.inr (.inl hx))).2 rfl
      · have : n4 ≠ some x := fun h => e24 x h hx
        unfold twoRen; simp only [if_neg this, if_pos hx, swapN_self]
  · rintro p a b n (rfl | rfl) h
    · rcases (hk _ _ _).1 h with ⟨rfl, rfl, rfl⟩ | ⟨rfl, rfl, rfl⟩ | ⟨rfl, rfl, rfl⟩
      · exact .inl ⟨_, .inl ⟨rfl, rfl, rfl, rfl, rfl⟩⟩
      · exact .inr ⟨_, .inr rfl, rfl⟩
      · exact .inl ⟨_, .inr (.inl ⟨rfl, rfl, rfl, rfl, rfl⟩)⟩
    · rcases (hk' _ _ _).1 h with ⟨rfl, rfl, rfl⟩ | ⟨rfl, rfl, rfl⟩ | ⟨rfl, rfl, rfl⟩
      · exact .inl ⟨_, .inr (.inr (.inl ⟨rfl, rfl, rfl, rfl, rfl⟩))⟩
      · exact .inr ⟨_, .inl rfl, rfl⟩
      · exact .inl ⟨_, .inr (.inr (.inr ⟨rfl, rfl, rfl, rfl, rfl⟩))⟩
  · rintro q a b n (rfl | rfl | rfl | rfl) h
    · rcases (nk _ _ _).1 h with ⟨rfl, rfl, rfl⟩ | ⟨rfl, rfl, rfl⟩ | ⟨rfl, rfl, rfl⟩
      · exact .inl ⟨_, .inl ⟨rfl, rfl, rfl, rfl, rfl⟩⟩
      · exact .inr ⟨_, rfl, (na2 _ _ _).2 (.inr (.inl ⟨rfl, rfl, rfl⟩))⟩
      · exact .inr ⟨_, rfl, (na1 _ _ _).2 (.inl ⟨rfl, rfl, rfl⟩)⟩
    · rcases (nk' _ _ _).1 h with ⟨rfl, rfl, rfl⟩ | ⟨rfl, rfl, rfl⟩ | ⟨rfl, rfl, rfl⟩
      · exact .inl ⟨_, .inr (.inr (.inl ⟨rfl, rfl, rfl, rfl, rfl⟩))⟩
      · exact .inr ⟨_, rfl, (na1 _ _ _).2 (.inr (.inl ⟨rfl, rfl, rfl⟩))⟩
      · exact .inr ⟨_, rfl, (na2 _ _ _).2 (.inl ⟨rfl, rfl, rfl⟩)⟩
    · rcases (na1 _ _ _).1 h with ⟨rfl, rfl, rfl⟩ | ⟨rfl, rfl, rfl⟩ | ⟨rfl, rfl, rfl⟩
      · exact .inr ⟨_, rfl, (nk _ _ _).2 (.inr (.inr ⟨rfl, rfl, rfl⟩))⟩
      · exact .inr ⟨_, rfl, (nk' _ _ _).2 (.inr (.inl ⟨rfl, rfl, rfl⟩))⟩
      · exact .inl ⟨_, .inr (.inl ⟨rfl, rfl, rfl, rfl, rfl⟩)⟩
    · rcases (na2 _ _ _).1 h with ⟨rfl, rfl, rfl⟩ | ⟨rfl, rfl, rfl⟩ | ⟨rfl, rfl, rfl⟩
      · exact .inr ⟨_, rfl, (nk' _ _ _).2 (.inr (.inr ⟨rfl, rfl, rfl⟩))⟩
      · exact .inr ⟨_, rfl, (nk _ _ _).2 (.inr (.inl ⟨rfl, rfl, rfl⟩))⟩
      · exact .inl ⟨_, .inr (.inr (.inr ⟨rfl, rfl, rfl, rfl, rfl⟩))⟩
  · intro x a b n hx
    exact hr x a b n (fun h => hx (.inl h)) (fun h => hx (.inr (.inl h))) (fun h => hx (.inr (.inr (.inl h)))) (fun h => hx (.inr (.inr (.inr h))))
  · intro x n h
    exact twoRen_same (h k (.inl rfl)) (h k' (.inr rfl))

/-! ## Sums over the triangles -/

/-- The sum of a number for each triangle. -/
def total (f : (Fin 3 → Nat) → Int) (ts : List Tri) : Int := ((ts.map Tri.v).map f).sum

theorem total_ren (f : (Fin 3 → Nat) → Int) (ts : List Tri) (x : Option Nat) (o w : Nat) : total f (ren ts x o w) = total f ts := by unfold total; rw [ren_verts]

theorem total_append (f : (Fin 3 → Nat) → Int) (ts us : List Tri) : total f (ts ++ us) = total f ts + total f us := by unfold total; simp

theorem total_set (f : (Fin 3 → Nat) → Int) : ∀ (ts : List Tri) (k : Nat) (t u : Tri), ts[k]? = some t → total f (ts.set k u) = total f ts - f t.v + f u.v := by
  intro ts
  induction ts with
  | nil => intro k t u h; simp at h
  | cons x ts ih =>
    intro k t u h
    cases k with
    | zero =>
      simp only [List.getElem?_cons_zero, Option.some.injEq] at h
      subst h
      simp only [total, List.set_cons_zero, List.map_cons, List.sum_cons]; omega
    | succ k =>
      have := ih k t u (by simpa using h)
      simp only [total, List.set_cons_succ, List.map_cons, List.sum_cons] at this ⊢; omega

theorem corner_iff (ts : List Tri) (k v : Nat) : Corner ts k v ↔ ∃ f : Fin 3 → Nat, (ts.map Tri.v)[k]? = some f ∧ ∃ i, f i = v := by
  unfold Corner
  rw [List.getElem?_map]
  cases ts[k]? with
  | none => simp
  | some t => simp

theorem corner_ren (ts : List Tri) (x : Option Nat) (o w k v : Nat) : Corner (ren ts x o w) k v ↔ Corner ts k v := by rw [corner_iff, corner_iff, ren_verts]

theorem corner_at {k : Nat} {t : Tri} (e : ts[k]? = some t) (i : Fin 3) (v : Nat) : Corner ts k v ↔ v = t.v i ∨ v = t.v (i + 1) ∨ v = t.v (i + 2) := by
  unfold Corner
  rw [e]
  simp only [Option.some.injEq]
  constructor
  · rintro ⟨_, j, rfl, rfl⟩
    fin_cases i <;> fin_cases j <;> simp
  · rintro (h | h | h)
    · exact ⟨t, i, rfl, h.symm⟩
    · exact ⟨t, i + 1, rfl, h.symm⟩
    · exact ⟨t, i + 2, rfl, h.symm⟩

theorem corner_mk {k p q r : Nat} {n : Fin 3 → Option Nat} (e : ts[k]? = some ⟨![p, q, r], n⟩) (v : Nat) : Corner ts k v ↔ v = p ∨ v = q ∨ v = r := corner_at e 0 v

/-! ## The lists of triangles around the vertices -/

/-- The list of `v` has no duplicates and has exactly the triangles `k` with `R v k`. -/
def Listed (vt : List (List Nat)) (R : Nat → Nat → Prop) : Prop := ∀ (v : Nat) (l : List Nat), vt[v]? = some l → l.Nodup ∧ ∀ k, k ∈ l ↔ R v k

theorem addAdj_spec {vt : List (List Nat)} {R : Nat → Nat → Prop} {v k : Nat} (h : Listed vt R) (hv : v < vt.length) (hn : ¬R v k) :
    ∃ vt', addAdj vt v k = some vt' ∧ vt'.length = vt.length ∧ Listed vt' (fun u x => R u x ∨ (u = v ∧ x = k)) := by
  have e : vt[v]? = some vt[v] := List.getElem?_eq_getElem hv
  refine ⟨vt.set v (vt[v] ++ [k]), by unfold addAdj; rw [e]; rfl, by simp, ?_⟩
  intro u l hl
  by_cases hu : v = u
  · subst hu
    rw [List.getElem?_set_self hv] at hl
    cases Option.some.inj hl
    obtain ⟨h1, h2⟩ := h v _ e
    constructor
    · rw [List.nodup_append]
      refine ⟨h1, List.nodup_singleton _, ?_⟩
      intro a ha b hb he
      rw [List.mem_singleton] at hb
      subst hb; subst he
      exact hn ((h2 _).1 ha)
    · intro x; rw [List.mem_append, h2, List.mem_singleton]; simp
  · rw [List.getElem?_set_ne hu] at hl
    obtain ⟨h1, h2⟩ := h u l hl
    exact ⟨h1, fun x => by rw [h2]; simp [Ne.symm hu]⟩

theorem removeAdj_spec {vt : List (List Nat)} {R : Nat → Nat → Prop} {v k : Nat} (h : Listed vt R) (hv : v < vt.length) (hn : R v k) :
    ∃ vt', removeAdj vt v k = some vt' ∧ vt'.length = vt.length ∧ Listed vt' (fun u x => R u x ∧ ¬(u = v ∧ x = k)) := by
  have e : vt[v]? = some vt[v] := List.getElem?_eq_getElem hv
  obtain ⟨h1, h2⟩ := h v _ e
  refine ⟨vt.set v (vt[v].erase k), by unfold removeAdj; rw [e]; simp only [Option.bind_some]; rw [if_pos ((h2 k).2 hn)], by simp, ?_⟩
  intro u l hl
  by_cases hu : v = u
  · subst hu
    rw [List.getElem?_set_self hv] at hl
    cases Option.some.inj hl
    refine ⟨h1.erase k, fun x => ?_⟩
    rw [h1.mem_erase_iff, h2]
    constructor
    · rintro ⟨a, b⟩; exact ⟨b, fun h => a h.2⟩
    · rintro ⟨a, b⟩; exact ⟨fun h => b ⟨rfl, h⟩, a⟩
  · rw [List.getElem?_set_ne hu] at hl
    obtain ⟨h1, h2⟩ := h u l hl
    exact ⟨h1, fun x => by rw [h2]; simp [Ne.symm hu]⟩

theorem Listed.congr {vt : List (List Nat)} {R R' : Nat → Nat → Prop} (h : Listed vt R) (hr : ∀ v k, v < vt.length → (R v k ↔ R' v k)) : Listed vt R' :=
  fun v l hl => ⟨(h v l hl).1, fun k => ((h v l hl).2 k).trans (hr v k (List.getElem?_eq_some_iff.1 hl).1)⟩

end Mcut.Cdt
