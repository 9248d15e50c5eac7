import Verif.Spec.C92
import Verif.Lemmas.Hmesh

/-! # Lemmas for C92 -/
namespace Mcut.Inner
open Mcut.Hmesh
open Mcut.Trace (src)
variable {P : Type} {m : Mesh P} {base : Nat} {polys : List (List Nat)} {users : Nat → List Nat}

theorem cyc_iff {α : Type} (p : List α) (a b : α) : (a, b) ∈ cycPairs p ↔ ∃ i, p[i]? = some a ∧ p[(i + 1) % p.length]? = some b := by
  unfold cycPairs
  rw [List.mem_iff_getElem?]
  constructor
  · rintro ⟨i, h⟩
    rw [List.getElem?_zip_eq_some] at h
    obtain ⟨h1, h2⟩ := h
    have hl := (List.getElem?_eq_some_iff.1 h1).1
    rw [List.getElem?_rotate hl] at h2
    exact ⟨i, h1, h2⟩
  · rintro ⟨i, h1, h2⟩
    have hl := (List.getElem?_eq_some_iff.1 h1).1
    refine ⟨i, List.getElem?_zip_eq_some.2 ⟨h1, ?_⟩⟩
    rw [List.getElem?_rotate hl]
    exact h2

/-- `g` comes after `h` in a polygon. -/
def Next (polys : List (List Nat)) (h g : Nat) : Prop := ∃ (e : Nat) (p : List Nat), polys[e]? = some p ∧ (h, g) ∈ cycPairs p

theorem succ_inj {a b n : Nat} (ha : a < n) (hb : b < n) (h : (a + 1) % n = (b + 1) % n) : a = b := by
  by_cases h1 : a + 1 < n <;> by_cases h2 : b + 1 < n
  · rw [Nat.mod_eq_of_lt h1, Nat.mod_eq_of_lt h2] at h; omega
  · rw [Nat.mod_eq_of_lt h1, show b + 1 = n by omega, Nat.mod_self] at h; omega
  · rw [Nat.mod_eq_of_lt h2, show a + 1 = n by omega, Nat.mod_self] at h; omega
  · omega

theorem Surface.next_inj (S : Surface m base polys users) {a b g : Nat} (ha : Next polys a g) (hb : Next polys b g) (hg : src m g < base) : a = b := by
  obtain ⟨e, p, he, hp⟩ := ha
  obtain ⟨e', p', he', hp'⟩ := hb
  obtain ⟨i, h1, h2⟩ := (cyc_iff p a g).1 hp
  obtain ⟨j, h3, h4⟩ := (cyc_iff p' b g).1 hp'
  obtain rfl := S.once e e' p p' g he he' (List.mem_of_getElem? h2) (List.mem_of_getElem? h4) (.inl hg)
  obtain rfl := Option.some.inj (he.symm.trans he')
  have hi := (List.getElem?_eq_some_iff.1 h1).1
  have hj := (List.getElem?_eq_some_iff.1 h3).1
  have nd := S.nodup p (List.mem_of_getElem? he)
  have := succ_inj hi hj ((List.getElem?_inj (Nat.mod_lt _ (by omega)) nd).1 (h2.trans h4.symm))
  subst this
  exact Option.some.inj (h1.symm.trans h3)

/-- From halfedge `x` to the next one around its source. -/
def Step (m : Mesh P) (base : Nat) (polys : List (List Nat)) (x y : Nat) : Prop := Next polys (opposite x) y ∧ src m y < base

theorem Surface.step_inj (S : Surface m base polys users) {a b y : Nat} (ha : Step m base polys a y) (hb : Step m base polys b y) : a = b := by
  have := S.next_inj ha.1 hb.1 ha.2
  rw [← opposite_opposite a, this, opposite_opposite]

theorem Next.mem {h g : Nat} (N : Next polys h g) : (∃ p ∈ polys, h ∈ p) ∧ ∃ p ∈ polys, g ∈ p := by
  obtain ⟨e, p, he, hp⟩ := N
  obtain ⟨i, h1, h2⟩ := (cyc_iff p h g).1 hp
  exact ⟨⟨p, List.mem_of_getElem? he, List.mem_of_getElem? h1⟩, p, List.mem_of_getElem? he, List.mem_of_getElem? h2⟩

/-- The halfedge `g` follows the halfedge `c` on the border. -/
def Follows (m : Mesh P) (base : Nat) (polys : List (List Nat)) (c g : Nat) : Prop := Relation.ReflTransGen (Step m base polys) (opposite c) g ∧ OnBorder polys g

/-- Chains that begin at something that nothing leads to. -/
theorem Surface.back (S : Surface m base polys users) {a g : Nat} (ha : Relation.ReflTransGen (Step m base polys) a g) (na : ∀ p ∈ polys, a ∉ p) :
    ∀ {b : Nat}, Relation.ReflTransGen (Step m base polys) b g → (∀ p ∈ polys, b ∉ p) → a = b := by
  induction ha with
  | refl =>
    intro b hb nb
    rcases Relation.ReflTransGen.cases_tail hb with h | ⟨c, -, h⟩
    · exact h
    · obtain ⟨p, hp, hm⟩ := h.1.mem.2
      exact absurd hm (na p hp)
  | @tail y z hy hyz ih =>
    intro b hb nb
    rcases Relation.ReflTransGen.cases_tail hb with h | ⟨c, hc, h⟩
    · subst h
      obtain ⟨p, hp, hm⟩ := hyz.1.mem.2
      exact absurd hm (nb p hp)
    · obtain rfl := S.step_inj hyz h
      exact ih hc nb

theorem Surface.follows_inj (S : Surface m base polys users) {c c' g : Nat} (hc : OnBorder polys c) (hc' : OnBorder polys c') (h : Follows m base polys c g) (h' : Follows m base polys c' g) : c = c' := by
  have := S.back h.1 hc.2 h'.1 hc'.2
  rw [← opposite_opposite c, this, opposite_opposite]

theorem Surface.no_users (S : Surface m base polys users) {h : Nat} : users h = [] ↔ ∀ p ∈ polys, h ∉ p := by
  rw [List.eq_nil_iff_forall_not_mem]
  constructor
  · intro H p hp hm
    obtain ⟨e, he⟩ := List.mem_iff_getElem?.1 hp
    exact H e ((S.users h e).2 ⟨p, he, hm⟩)
  · intro H e he
    obtain ⟨p, hp, hm⟩ := (S.users h e).1 he
    exact H p (List.mem_of_getElem? hp) hm

theorem subset_length {l l' : List Nat} (nd : l.Nodup) (h : ∀ x ∈ l, x ∈ l') : l.length ≤ l'.length := (List.subperm_of_subset nd h).length_le

/-- The turn around a point ends at the next halfedge on the border. -/
theorem Surface.turn_ends (S : Surface m base polys users) {c : Nat} (hc : OnBorder polys c) (hv : m.target c < base) :
    ∀ (n : Nat) (L : List Nat) (e i : Nat) (p : List Nat) (h : Nat), polys[e]? = some p → p[i]? = some h → src m h = m.target c → L.Nodup → h ∉ L → (∀ x ∈ L, ∃ q ∈ polys, x ∈ q) →
      Relation.ReflTransGen (Step m base polys) (opposite c) h → (∀ y ∈ h :: L, Step m base polys (opposite c) y ∨ ∃ x ∈ L, Step m base polys x y) → polys.flatten.length + 1 ≤ L.length + n →
      ∃ e' i' p' g, turn polys users n e i = some (e', i') ∧ polys[e']? = some p' ∧ p'[i']? = some g ∧ src m g = m.target c ∧ Follows m base polys c g := by
  intro n
  induction n with
  | zero =>
    intro L e i p h he hi _ nd _ hL _ _ hn
    have := subset_length nd (l' := polys.flatten) fun x hx => by
      obtain ⟨q, hq, hm⟩ := hL x hx
      exact List.mem_flatten.2 ⟨q, hq, hm⟩
    omega
  | succ n ih =>
    intro L e i p h he hi hs nd hnew hL hr hback hn
    have hp := List.mem_of_getElem? he
    have hm := List.mem_of_getElem? hi
    unfold turn
    rw [he, Option.bind_some, hi, Option.bind_some]
    cases hu : users (opposite h) with
    | nil => exact ⟨e, i, p, h, rfl, he, hi, hs, hr, ⟨p, hp, hm⟩, S.no_users.1 hu⟩
    | cons e' us =>
      obtain ⟨q, hq, hqm⟩ := (S.users (opposite h) e').1 (by rw [hu]; exact List.mem_cons_self)
      have hqp := List.mem_of_getElem? hq
      simp only
      rw [hq, Option.bind_some, if_pos hqm]
      have hlt := List.idxOf_lt_length_of_mem hqm
      have hlt' : (q.idxOf (opposite h) + 1) % q.length < q.length := Nat.mod_lt _ (by omega)
      have hg := List.getElem?_eq_getElem hlt'
      obtain ⟨g, eg⟩ : ∃ g, g = q[(q.idxOf (opposite h) + 1) % q.length] := ⟨_, rfl⟩
      rw [← eg] at hg
      have N : Next polys (opposite h) g := ⟨e', q, hq, (cyc_iff q _ _).2 ⟨q.idxOf (opposite h), by rw [List.getElem?_eq_getElem hlt, List.getElem_idxOf], hg⟩⟩
      have hsg : src m g = m.target c := by
        obtain ⟨e0, q0, h0, hc0⟩ := N
        rw [← S.closed q0 (List.mem_of_getElem? h0) _ hc0, ← hs, (S.ends p hp h hm).1]
      have st : Step m base polys h g := ⟨N, by rw [hsg]; exact hv⟩
      refine ih (h :: L) e' _ q g hq hg hsg (List.nodup_cons.2 ⟨hnew, nd⟩) ?_ ?_ (hr.tail st) ?_ (by rw [List.length_cons]; omega)
      · intro hmem
        rcases hback g hmem with hb | ⟨x, hx, hb⟩
        · have := S.step_inj hb st
          exact hc.2 p hp (by rw [this]; exact hm)
        · obtain rfl := S.step_inj hb st
          exact hnew hx
      · intro x hx
        rcases List.mem_cons.1 hx with rfl | hx
        · exact ⟨p, hp, hm⟩
        · exact hL x hx
      · intro y hy
        rcases List.mem_cons.1 hy with rfl | hy
        · exact .inr ⟨h, List.mem_cons_self, st⟩
        · rcases hback y hy with hb | ⟨x, hx, hb⟩
          · exact .inl hb
          · exact .inr ⟨x, List.mem_cons_of_mem _ hx, hb⟩

theorem Surface.turn_ok (S : Surface m base polys users) {e i : Nat} {p : List Nat} {c : Nat} (he : polys[e]? = some p) (hi : p[i]? = some c) (hc : OnBorder polys c) (hv : m.target c < base) {n : Nat} (hn : polys.flatten.length + 1 ≤ n) :
    ∃ e' i' p' g, turn polys users n e ((i + 1) % p.length) = some (e', i') ∧ polys[e']? = some p' ∧ p'[i']? = some g ∧ src m g = m.target c ∧ Follows m base polys c g := by
  have hl := (List.getElem?_eq_some_iff.1 hi).1
  obtain ⟨g, hg⟩ : ∃ g, p[(i + 1) % p.length]? = some g := ⟨_, List.getElem?_eq_getElem (Nat.mod_lt (i + 1) (show 0 < p.length by omega))⟩
  have cp := (cyc_iff p _ _).2 ⟨i, hi, hg⟩
  have hs := (S.closed p (List.mem_of_getElem? he) _ cp).symm
  have st : Step m base polys (opposite c) g := ⟨by rw [opposite_opposite]; exact ⟨e, p, he, cp⟩, by rw [hs]; exact hv⟩
  refine S.turn_ends hc hv n [] e _ p _ he hg hs List.nodup_nil (by simp) (by simp) (Relation.ReflTransGen.single st) ?_ (by simpa using hn)
  intro y hy
  rw [List.mem_singleton] at hy
  subst hy
  exact .inl st

/-- The walk along the border ends at an intersection point. -/
theorem Surface.walk_ends (S : Surface m base polys users) {rounds : Nat} (hr : polys.flatten.length + 1 ≤ rounds) {c0 : Nat} (h0 : base ≤ src m c0) :
    ∀ (n : Nat) (L : List Nat) (e i : Nat) (p : List Nat) (c : Nat), polys[e]? = some p → p[i]? = some c → OnBorder polys c → L.Nodup → c ∉ L → (∀ x ∈ L, OnBorder polys x ∧ m.target x < base) →
      (∀ y ∈ c :: L, y = c0 ∨ ∃ x ∈ L, Follows m base polys x y) → polys.flatten.length + 1 ≤ L.length + n →
      ∃ l : List Nat, walk m base polys users rounds n e i = some (l.map m.target) ∧ l.head? = some c ∧ (∀ h ∈ l, OnBorder polys h) ∧ l.IsChain (fun a b => src m b = m.target a) ∧ (∃ h, l.getLast? = some h ∧ base ≤ m.target h) ∧ ∀ h ∈ l.dropLast, m.target h < base := by
  intro n
  induction n with
  | zero =>
    intro L e i p c he hi _ nd _ hL _ hn
    have := subset_length nd (l' := polys.flatten) fun x hx => by
      obtain ⟨⟨⟨q, hq, hm⟩, -⟩, -⟩ := hL x hx
      exact List.mem_flatten.2 ⟨q, hq, hm⟩
    omega
  | succ n ih =>
    intro L e i p c he hi hc nd hnew hL hback hn
    unfold walk
    rw [he, Option.bind_some, hi, Option.bind_some]
    by_cases ht : base ≤ m.target c
    · rw [if_pos ht]
      exact ⟨[c], rfl, rfl, by simpa using hc, .singleton c, ⟨c, rfl, ht⟩, by simp⟩
    · rw [if_neg ht]
      obtain ⟨e', i', p', g, et, he', hi', hs, F⟩ := S.turn_ok he hi hc (by omega) hr
      rw [et, Option.bind_some]
      have g1 : g ∉ c :: L := by
        intro hmem
        rcases hback g hmem with rfl | ⟨x, hx, hb⟩
        · omega
        · obtain rfl := S.follows_inj (hL x hx).1 hc hb F
          exact hnew hx
      have g2 : ∀ x ∈ c :: L, OnBorder polys x ∧ m.target x < base := by
        intro x hx
        rcases List.mem_cons.1 hx with rfl | hx
        · exact ⟨hc, by omega⟩
        · exact hL x hx
      have g3 : ∀ y ∈ g :: c :: L, y = c0 ∨ ∃ x ∈ c :: L, Follows m base polys x y := by
        intro y hy
        rcases List.mem_cons.1 hy with rfl | hy
        · exact .inr ⟨c, List.mem_cons_self, F⟩
        · rcases hback y hy with hb | ⟨x, hx, hb⟩
          · exact .inl hb
          · exact .inr ⟨x, List.mem_cons_of_mem _ hx, hb⟩
      obtain ⟨l, ew, l1, l2, l3, l4, l5⟩ := ih (c :: L) e' i' p' g he' hi' F.2 (List.nodup_cons.2 ⟨hnew, nd⟩) g1 g2 g3 (by rw [List.length_cons]; omega)
      refine ⟨c :: l, by simp only; rw [ew]; rfl, rfl, ?_, ?_, ?_, ?_⟩
      · intro h hh
        rcases List.mem_cons.1 hh with rfl | hh
        · exact hc
        · exact l2 h hh
      · cases l with
        | nil => cases l1
        | cons x l =>
          obtain rfl := Option.some.inj l1
          exact List.isChain_cons_cons.2 ⟨hs, l3⟩
      · obtain ⟨h, h1, h2⟩ := l4
        refine ⟨h, ?_, h2⟩
        cases l with
        | nil => cases l1
        | cons x l => rw [List.getLast?_cons_cons]; exact h1
      · cases l with
        | nil => cases l1
        | cons x l =>
          intro h hh
          rw [List.dropLast_cons_of_ne_nil (by simp)] at hh
          rcases List.mem_cons.1 hh with rfl | hh
          · omega
          · exact l5 h hh

end Mcut.Inner
