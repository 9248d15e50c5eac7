import Verif.Spec.C71
import Mathlib.Data.List.Chain
import Mathlib.Data.List.Perm.Subperm
import Mathlib.Data.List.Nodup

/-! Lemmas for C71: tracing the polygons of one face. -/
namespace Mcut.Trace
open Mcut.Hmesh
variable {P : Type} {m : Mesh P} {E I : List Nat}

/-- The halfedges of a face: `E` goes once around its boundary, `I` are both halfedges of its cut edges. -/
structure Laid (m : Mesh P) (E I : List Nat) : Prop where
  nd : (E ++ I).Nodup
  proper : ∀ h, h ∈ E ∨ h ∈ I → src m h ≠ m.target h
  flip : ∀ h, h ∈ I → src m (opposite h) = m.target h ∧ m.target (opposite h) = src m h
  pairs : ∀ h ∈ I, opposite h ∈ I
  twice : ∀ h ∈ I, opposite (opposite h) = h
  oneway : ∀ h ∈ E, opposite h ∉ E ∧ opposite h ∉ I
  step : ∀ i h g, E[i]? = some h → E[i + 1]? = some g → m.target h = src m g
  back : ∀ h g, E.head? = some h → E.getLast? = some g → m.target g = src m h
  sources : ∀ h ∈ E, ∀ g ∈ E, src m h = src m g → h = g
  targets : ∀ h ∈ E, ∀ g ∈ E, m.target h = m.target g → h = g
  one : ∀ h ∈ E, ∀ g ∈ I, ∀ g' ∈ I, src m g = src m h → src m g' = src m h → g = g'
  two : ∀ a ∈ I, ∀ b ∈ I, ∀ c ∈ I, src m a = src m b → src m b = src m c → a = b ∨ b = c ∨ a = c
  noDouble : ∀ h ∈ E, ∀ g, g ∈ E ∨ g ∈ I → src m g = m.target h → m.target g ≠ src m h

theorem Laid.disjoint (L : Laid m E I) {h : Nat} (h1 : h ∈ E) (h2 : h ∈ I) : False := by
  have := L.nd
  rw [List.nodup_append] at this
  exact this.2.2 h h1 h h2 rfl

/-- Every halfedge of the boundary ends where another one begins. -/
theorem Laid.after (L : Laid m E I) {h : Nat} (hh : h ∈ E) : ∃ x ∈ E, src m x = m.target h := by
  obtain ⟨i, hi⟩ := List.mem_iff_getElem?.1 hh
  cases hn : E[i + 1]? with
  | some g => exact ⟨g, List.mem_of_getElem? hn, (L.step i h g hi hn).symm⟩
  | none =>
    have h1 : E.length ≤ i + 1 := List.getElem?_eq_none_iff.1 hn
    obtain ⟨h2, -⟩ := List.getElem?_eq_some_iff.1 hi
    have hlast : E.getLast? = some h := by rw [List.getLast?_eq_getElem?]; rw [← hi]; congr 1; omega
    cases E with
    | nil => simp at hh
    | cons a l => exact ⟨a, by simp, (L.back a h rfl hlast).symm⟩

/-- Two elements of a part of `E ++ I`, in this order. -/
theorem pair_order {a b : Nat} (hnd : (E ++ I).Nodup) (h : [a, b].Sublist (E ++ I)) (hb : b ∈ E) : a ∈ E := by
  rw [List.sublist_append_iff] at h
  obtain ⟨l1, l2, h1, h2, h3⟩ := h
  match l1, h1 with
  | [], h1 =>
    simp only [List.nil_append] at h1
    have : b ∈ I := h3.subset (by rw [← h1]; simp)
    rw [List.nodup_append] at hnd
    exact absurd rfl (hnd.2.2 b hb b this)
  | x :: l, h1 =>
    simp only [List.cons_append, List.cons.injEq] at h1
    rw [h1.1]
    exact h2.subset (by simp)

theorem mem_candidates {v h : Nat} {todo : List Nat} : h ∈ candidates m v todo ↔ h ∈ todo ∧ src m h = v := by
  unfold candidates; simp

theorem Laid.few (L : Laid m E I) {todo : List Nat} (hs : todo.Sublist (E ++ I)) (v : Nat) : (candidates m v todo).length ≤ 2 := by
  have hsub : (candidates m v todo).Sublist (E ++ I) := List.filter_sublist.trans hs
  have hnd := hsub.nodup L.nd
  match hc : candidates m v todo with
  | [] => simp
  | [_] => simp
  | [_, _] => simp
  | a :: b :: c :: l =>
    exfalso
    rw [hc] at hnd
    have hm : ∀ x ∈ [a, b, c], (x ∈ E ∨ x ∈ I) ∧ src m x = v := by
      intro x hx
      have : x ∈ candidates m v todo := by
        rw [hc]; simp only [List.mem_cons, List.not_mem_nil, or_false] at hx ⊢
        rcases hx with h | h | h
        · exact .inl h
        · exact .inr (.inl h)
        · exact .inr (.inr (.inl h))
      exact ⟨List.mem_append.1 (hs.subset (mem_candidates.1 this).1), (mem_candidates.1 this).2⟩
    have hab : a ≠ b := by rintro rfl; simp at hnd
    have hac : a ≠ c := by rintro rfl; simp at hnd
    have hbc : b ≠ c := by rintro rfl; simp at hnd
    obtain ⟨ha, sa⟩ := hm a (by simp)
    obtain ⟨hb, sb⟩ := hm b (by simp)
    obtain ⟨hc', sc⟩ := hm c (by simp)
    rcases ha with ha | ha <;> rcases hb with hb | hb <;> rcases hc' with hc' | hc'
    · exact hab (L.sources a ha b hb (sa.trans sb.symm))
    · exact hab (L.sources a ha b hb (sa.trans sb.symm))
    · exact hac (L.sources a ha c hc' (sa.trans sc.symm))
    · exact hbc (L.one a ha b hb c hc' (sb.trans sa.symm) (sc.trans sa.symm))
    · exact hbc (L.sources b hb c hc' (sb.trans sc.symm))
    · exact hac (L.one b hb a ha c hc' (sa.trans sb.symm) (sc.trans sb.symm))
    · exact hab (L.one c hc' a ha b hb (sa.trans sc.symm) (sb.trans sc.symm))
    · rcases L.two a ha b hb c hc' (sa.trans sb.symm) (sb.trans sc.symm) with h | h | h
      · exact hab h
      · exact hbc h
      · exact hac h

theorem idxOf_lt (L : Laid m E I) {h : Nat} (hm : h ∈ E ∨ h ∈ I) : (E ++ I).idxOf h < E.length ↔ h ∈ E := by
  constructor
  · intro hlt
    by_contra hE
    rw [List.idxOf_append_of_notMem hE] at hlt
    omega
  · intro hE
    rw [List.idxOf_append_of_mem hE]
    exact List.idxOf_lt_length_iff.2 hE

/-- The choice follows the rule if the halfedge to go on with has not been used yet. -/
theorem pick_turn (L : Laid m E I) {todo : List Nat} (hs : todo.Sublist (E ++ I)) {h g : Nat} (hm : h ∈ E ∨ h ∈ I) (T : Turn m E I h g) (hg : g ∈ todo) :
    pick m (E ++ I) E.length h todo = some g := by
  have hgc : g ∈ candidates m (m.target h) todo := mem_candidates.2 ⟨hg, T.goesOn⟩
  have hsub : (candidates m (m.target h) todo).Sublist (E ++ I) := List.filter_sublist.trans hs
  have hnd := hsub.nodup L.nd
  have hlen := L.few hs (m.target h)
  unfold pick
  simp only
  match hc : candidates m (m.target h) todo with
  | [] => rw [hc] at hgc; simp at hgc
  | [a] =>
    rw [hc] at hgc
    have : g = a := by simpa using hgc
    simp [this]
  | a :: b :: c :: l => rw [hc] at hlen; simp at hlen
  | [a, b] =>
    rw [hc] at hgc hnd hsub
    simp only [List.length_cons, List.length_nil, Nat.zero_add, Nat.reduceAdd, if_true, List.head?_cons, Option.some.injEq]
    have hab : a ≠ b := by rintro rfl; simp at hnd
    have hma : a ∈ candidates m (m.target h) todo := by rw [hc]; simp
    have hmb : b ∈ candidates m (m.target h) todo := by rw [hc]; simp
    have sa := (mem_candidates.1 hma).2
    have sb := (mem_candidates.1 hmb).2
    have ma := List.mem_append.1 (hs.subset (mem_candidates.1 hma).1)
    have mb := List.mem_append.1 (hs.subset (mem_candidates.1 hmb).1)
    have hlast : [a, b].getLast? = some b := rfl
    rw [hlast]
    have hg2 : g = a ∨ g = b := by simpa using hgc
    -- the boundary candidate comes first
    have split : (∃ x ∈ E, src m x = m.target h) → a ∈ E ∧ b ∈ I := by
      rintro ⟨x, hx, sx⟩
      have hb : b ∈ I := by
        rcases mb with hb | hb
        · have ha := pair_order L.nd hsub hb
          exact absurd (L.sources a ha b hb (sa.trans sb.symm)) hab
        · exact hb
      refine ⟨?_, hb⟩
      rcases ma with ha | ha
      · exact ha
      · exact absurd (L.one x hx a ha b hb (sa.trans sx.symm) (sb.trans sx.symm)) hab
    rcases hm with hE | hI
    · rw [if_pos ((idxOf_lt L (.inl hE)).2 hE)]
      obtain ⟨ha, hb⟩ := split (L.after hE)
      have := T.into hE ⟨b, hb, sb⟩
      rcases hg2 with rfl | rfl
      · exact absurd this (fun h => L.disjoint ha h)
      · rfl
    · rw [if_neg (fun h => L.disjoint ((idxOf_lt L (.inr hI)).1 h) hI)]
      by_cases hx : ∃ x ∈ E, src m x = m.target h
      · obtain ⟨ha, hb⟩ := split hx
        have hgE := T.outOf hI hx
        rw [if_neg (fun (h' : a = opposite h) => L.disjoint ha (h' ▸ L.pairs h hI))]
        rcases hg2 with rfl | rfl
        · rfl
        · exact absurd hb (fun h => L.disjoint hgE h)
      · have ha : a ∈ I := ma.resolve_left (fun h' => hx ⟨a, h', sa⟩)
        have hb : b ∈ I := mb.resolve_left (fun h' => hx ⟨b, h', sb⟩)
        have so := (L.flip h hI).1
        by_cases hao : a = opposite h
        · rw [if_pos hao]
          have := T.straight hI ⟨b, hb, sb, fun h' => hab (hao.trans h'.symm)⟩
          rcases hg2 with rfl | rfl
          · exact absurd hao this
          · rfl
        · rw [if_neg hao]
          have := T.straight hI ⟨a, ha, sa, hao⟩
          rcases hg2 with rfl | rfl
          · rfl
          · rcases L.two a ha g hb (opposite h) (L.pairs h hI) (sa.trans sb.symm) (sb.trans so.symm) with h' | h' | h'
            · exact absurd h' hab
            · exact absurd h' this
            · exact absurd h' hao

/-- There is always a halfedge to go on with. -/
theorem Laid.total (L : Laid m E I) {h : Nat} (hm : h ∈ E ∨ h ∈ I) : ∃ g, Turn m E I h g := by
  by_cases hx : ∃ x ∈ E, src m x = m.target h
  · rcases hm with hE | hI
    · by_cases hy : ∃ y ∈ I, src m y = m.target h
      · obtain ⟨y, hy1, hy2⟩ := hy
        exact ⟨y, .inr hy1, hy2, fun _ _ => hy1, fun h' => absurd h' (fun h' => L.disjoint hE h'), fun h' => absurd h' (fun h' => L.disjoint hE h')⟩
      · obtain ⟨x, hx1, hx2⟩ := hx
        exact ⟨x, .inl hx1, hx2, fun _ h' => absurd h' hy, fun h' => absurd h' (fun h' => L.disjoint hE h'), fun h' => absurd h' (fun h' => L.disjoint hE h')⟩
    · obtain ⟨x, hx1, hx2⟩ := hx
      exact ⟨x, .inl hx1, hx2, fun h' => absurd h' (fun h' => L.disjoint h' hI), fun _ _ => hx1, fun _ _ h' => L.disjoint hx1 (h' ▸ L.pairs h hI)⟩
  · have hI : h ∈ I := hm.resolve_left (fun hE => hx (L.after hE))
    by_cases hy : ∃ y ∈ I, src m y = m.target h ∧ y ≠ opposite h
    · obtain ⟨y, hy1, hy2, hy3⟩ := hy
      exact ⟨y, .inr hy1, hy2, fun _ _ => hy1, fun _ h' => absurd h' hx, fun _ _ => hy3⟩
    · exact ⟨opposite h, .inr (L.pairs h hI), (L.flip h hI).1, fun _ _ => L.pairs h hI, fun _ h' => absurd h' hx, fun _ h' => absurd h' hy⟩

/-- No two halfedges go on with the same one. -/
theorem Laid.inj (L : Laid m E I) {h h' g : Nat} (hm : h ∈ E ∨ h ∈ I) (hm' : h' ∈ E ∨ h' ∈ I) (T : Turn m E I h g) (T' : Turn m E I h' g) : h = h' := by
  have ht : m.target h = m.target h' := T.goesOn.symm.trans T'.goesOn
  rcases hm with hE | hI <;> rcases hm' with hE' | hI'
  · exact L.targets h hE h' hE' ht
  · exfalso
    have h1 := T.into hE ⟨opposite h', L.pairs h' hI', by rw [(L.flip h' hI').1, ht]⟩
    have h2 := T'.outOf hI' (by rw [← ht]; exact L.after hE)
    exact L.disjoint h2 h1
  · exfalso
    have h1 := T'.into hE' ⟨opposite h, L.pairs h hI, by rw [(L.flip h hI).1, ht]⟩
    have h2 := T.outOf hI (by rw [ht]; exact L.after hE')
    exact L.disjoint h2 h1
  · by_contra hne
    have hne' : opposite h ≠ opposite h' := fun h' => hne (by rw [← L.twice h hI, h', L.twice _ hI'])
    have s1 := (L.flip h hI).1
    have s2 := (L.flip h' hI').1
    by_cases hx : ∃ x ∈ E, src m x = m.target h
    · obtain ⟨x, hx1, hx2⟩ := hx
      exact hne' (L.one x hx1 _ (L.pairs h hI) _ (L.pairs h' hI') (s1.trans hx2.symm) (s2.trans (ht.symm.trans hx2.symm)))
    · have n1 := T.straight hI ⟨opposite h', L.pairs h' hI', s2.trans ht.symm, fun h'' => hne' h''.symm⟩
      have n2 := T'.straight hI' ⟨opposite h, L.pairs h hI, s1.trans ht, hne'⟩
      have hg : g ∈ I := T.mem.resolve_left (fun hg => hx ⟨g, hg, T.goesOn⟩)
      rcases L.two _ (L.pairs h hI) _ (L.pairs h' hI') g hg (s1.trans (ht.trans s2.symm)) (s2.trans T'.goesOn.symm) with h1 | h1 | h1
      · exact hne' h1
      · exact n2 h1.symm
      · exact n1 h1.symm

theorem Laid.fun (L : Laid m E I) {h g g' : Nat} (hm : h ∈ E ∨ h ∈ I) (T : Turn m E I h g) (T' : Turn m E I h g') : g = g' := by
  have a := pick_turn L (List.Sublist.refl _) hm T (List.mem_append.2 T.mem)
  have b := pick_turn L (List.Sublist.refl _) hm T' (List.mem_append.2 T'.mem)
  rw [a] at b
  exact Option.some.inj b

/-- A chain: every element but the first has a predecessor among all but the last. -/
theorem chain_pred {R : Nat → Nat → Prop} : ∀ (l : List Nat) (c g : Nat), (l ++ [c]).IsChain R → g ∈ l ++ [c] → (l ++ [c]).head? = some g ∨ ∃ h ∈ l, R h g := by
  intro l
  induction l with
  | nil => intro c g _ hg; left; simp at hg; simp [hg]
  | cons a l ih =>
    intro c g hc hg
    rw [List.cons_append] at hg hc ⊢
    rcases List.mem_cons.1 hg with rfl | hg
    · left; rfl
    · right
      have hc' := hc.tail
      rcases ih c g hc' hg with h | ⟨h, h1, h2⟩
      · refine ⟨a, by simp, ?_⟩
        match hl : l ++ [c], h, hc with
        | x :: xs, h, hc =>
          simp only [List.head?_cons, Option.some.injEq] at h
          rw [← h]
          exact (List.isChain_cons_cons.1 hc).1
      · exact ⟨h, by simp [h1], h2⟩

/-- One walk uses up what it walks. -/
theorem walk_perm (all : List Nat) (k first : Nat) : ∀ (n cur : Nat) (child todo : List Nat), cur ∈ todo →
    ((walk m all k first n cur child todo).2.1 ++ (walk m all k first n cur child todo).2.2).Perm (child ++ todo) ∧
      (walk m all k first n cur child todo).2.2.Sublist todo ∧ (walk m all k first n cur child todo).2.2.length < todo.length := by
  intro n
  induction n with
  | zero =>
    intro cur child todo hc
    unfold walk
    have hp : ((child ++ [cur]) ++ todo.erase cur).Perm (child ++ todo) := by
      rw [List.append_assoc]
      exact List.Perm.append_left _ (List.perm_cons_erase hc).symm
    have hl : (todo.erase cur).length < todo.length := by
      rw [List.length_erase_of_mem hc]
      have := List.length_pos_of_mem hc
      omega
    simp only
    split
    · exact ⟨hp, List.erase_sublist, hl⟩
    · exact ⟨hp, List.erase_sublist, hl⟩
  | succ n ih =>
    intro cur child todo hc
    unfold walk
    have hp : ((child ++ [cur]) ++ todo.erase cur).Perm (child ++ todo) := by
      rw [List.append_assoc]
      exact List.Perm.append_left _ (List.perm_cons_erase hc).symm
    have hl : (todo.erase cur).length < todo.length := by
      rw [List.length_erase_of_mem hc]
      have := List.length_pos_of_mem hc
      omega
    simp only
    split
    · exact ⟨hp, List.erase_sublist, hl⟩
    · split
      · exact ⟨hp, List.erase_sublist, hl⟩
      · rename_i h hpick
        have hmem : h ∈ todo.erase cur := by
          unfold pick at hpick
          simp only at hpick
          have hsub : ∀ x, x ∈ candidates m (m.target cur) (todo.erase cur) → x ∈ todo.erase cur := fun x hx => (mem_candidates.1 hx).1
          split at hpick
          · split at hpick
            · exact hsub _ (List.mem_of_getLast? hpick)
            · split at hpick
              · exact hsub _ (List.mem_of_getLast? hpick)
              · exact hsub _ (List.mem_of_head? hpick)
          · exact hsub _ (List.mem_of_head? hpick)
        obtain ⟨p1, p2, p3⟩ := ih h (child ++ [cur]) (todo.erase cur) hmem
        exact ⟨p1.trans hp, p2.trans List.erase_sublist, by omega⟩

/-- What has not been walked is closed under going on. -/
def Whole (m : Mesh P) (E I todo : List Nat) : Prop := ∀ h g, h ∈ E ∨ h ∈ I → Turn m E I h g → (h ∈ todo ↔ g ∈ todo)

theorem walk_close {all : List Nat} {k first n cur : Nat} {child todo : List Nat} (h : closes m all k first cur (child ++ [cur]) (todo.erase cur) = true) :
    walk m all k first n cur child todo = (true, child ++ [cur], todo.erase cur) := by
  cases n <;> (unfold walk; simp only [h, if_true])

theorem walk_go {all : List Nat} {k first n cur g : Nat} {child todo : List Nat} (h : closes m all k first cur (child ++ [cur]) (todo.erase cur) = false)
    (hg : pick m all k cur (todo.erase cur) = some g) : walk m all k first (n + 1) cur child todo = walk m all k first n g (child ++ [cur]) (todo.erase cur) := by
  conv_lhs => unfold walk
  simp only [h, hg]
  rfl

/-- The walk stops when it is back at its start. -/
theorem walk_end (L : Laid m E I) {todo0 : List Nat} (h0 : todo0.Sublist (E ++ I)) {first : Nat} (hf : first ∈ E)
    (S : ∀ h ∈ todo0, m.target h = src m first → Turn m E I h first) {n cur : Nat} {child todo : List Nat} (hc : cur ∈ todo) (hp : (child ++ todo).Perm todo0)
    (hhead : (child ++ [cur]).head? = some first) (hch : (child ++ [cur]).IsChain (Turn m E I)) (hclose : src m first = m.target cur) :
    ∃ p t, walk m (E ++ I) E.length first n cur child todo = (true, p, t) ∧ p.head? = some first ∧ 3 ≤ p.length ∧ Cyclic (Turn m E I) p ∧ (p ++ t).Perm todo0 ∧
      t.Sublist todo := by
  have hcur : cur ∈ todo0 := hp.subset (by simp [hc])
  have hcA := List.mem_append.1 (h0.subset hcur)
  have hp' : ((child ++ [cur]) ++ todo.erase cur).Perm todo0 := by
    rw [List.append_assoc]
    exact (List.Perm.append_left _ (List.perm_cons_erase hc).symm).trans hp
  have T := S cur hcur hclose.symm
  have hlen : 3 ≤ (child ++ [cur]).length := by
    match child, hhead, hch with
    | [], hhead, hch =>
      exfalso
      simp at hhead
      subst hhead
      exact L.proper cur hcA hclose
    | [a], hhead, hch =>
      exfalso
      simp at hhead
      subst hhead
      have T1 : Turn m E I a cur := (List.isChain_cons_cons.1 hch).1
      exact L.noDouble a hf cur hcA T1.goesOn hclose.symm
    | a :: b :: l, _, _ => simp
  have hne : cur ≠ opposite first := by
    rintro rfl
    rcases hcA with h | h
    · exact (L.oneway first hf).1 h
    · exact (L.oneway first hf).2 h
  refine ⟨child ++ [cur], todo.erase cur, walk_close ?_, hhead, hlen, ?_, hp', List.erase_sublist⟩
  · unfold closes
    simp only [hlen, hclose, hne, decide_true, Bool.true_and, ne_eq, not_false_eq_true, Bool.true_or]
  · unfold Cyclic
    have : (child ++ [cur]).take 1 = [first] := by
      match hcc : child ++ [cur], hhead with
      | x :: l, hhead => simp at hhead; simp [hhead]
    rw [this, List.isChain_append]
    refine ⟨hch, by simp, ?_⟩
    intro x hx y hy
    simp at hx hy
    subst hx hy
    exact T

/-- One walk that starts on the boundary traces a full cycle. -/
theorem walk_cycle (L : Laid m E I) {todo0 : List Nat} (h0 : todo0.Sublist (E ++ I)) (W : Whole m E I todo0) {first : Nat} (hf : first ∈ E)
    (S : ∀ h ∈ todo0, m.target h = src m first → Turn m E I h first) :
    ∀ (n cur : Nat) (child todo : List Nat), cur ∈ todo → todo.length ≤ n + 1 → (child ++ todo).Perm todo0 → todo.Sublist (E ++ I) →
      (child ++ [cur]).head? = some first → (child ++ [cur]).IsChain (Turn m E I) →
      ∃ p t, walk m (E ++ I) E.length first n cur child todo = (true, p, t) ∧ p.head? = some first ∧ 3 ≤ p.length ∧ Cyclic (Turn m E I) p ∧ (p ++ t).Perm todo0 ∧
        t.Sublist todo := by
  intro n
  have hnd0 := h0.nodup L.nd
  induction n with
  | zero =>
    intro cur child todo hc hlen hp hs hhead hch
    have hcur : cur ∈ todo0 := hp.subset (by simp [hc])
    have hcA := List.mem_append.1 (h0.subset hcur)
    have hp' : ((child ++ [cur]) ++ todo.erase cur).Perm todo0 := by
      rw [List.append_assoc]
      exact (List.Perm.append_left _ (List.perm_cons_erase hc).symm).trans hp
    have hnil : todo.erase cur = [] := by
      apply List.eq_nil_of_length_eq_zero
      rw [List.length_erase_of_mem hc]; omega
    have hclose : src m first = m.target cur := by
      obtain ⟨g, T⟩ := L.total hcA
      have hg : g ∈ todo0 := (W cur g hcA T).1 hcur
      have hg' := hp'.symm.subset hg
      rw [hnil, List.append_nil] at hg'
      rcases chain_pred _ _ g hch hg' with h | ⟨h, h1, h2⟩
      · rw [hhead] at h
        rw [Option.some.inj h]
        exact T.goesOn
      · exfalso
        have hh : h ∈ todo0 := hp.subset (by simp [h1])
        have := L.inj (List.mem_append.1 (h0.subset hh)) hcA h2 T
        subst this
        rw [← hp.nodup_iff] at hnd0
        rw [List.nodup_append] at hnd0
        exact hnd0.2.2 h h1 h hc rfl
    exact walk_end L h0 hf S hc hp hhead hch hclose
  | succ n ih =>
    intro cur child todo hc hlen hp hs hhead hch
    have hcur : cur ∈ todo0 := hp.subset (by simp [hc])
    have hcA := List.mem_append.1 (h0.subset hcur)
    by_cases hclose : src m first = m.target cur
    · exact walk_end L h0 hf S hc hp hhead hch hclose
    · have hp' : ((child ++ [cur]) ++ todo.erase cur).Perm todo0 := by
        rw [List.append_assoc]
        exact (List.Perm.append_left _ (List.perm_cons_erase hc).symm).trans hp
      have hno : closes m (E ++ I) E.length first cur (child ++ [cur]) (todo.erase cur) = false := by
        unfold closes; simp [hclose]
      obtain ⟨g, T⟩ := L.total hcA
      have hg : g ∈ todo0 := (W cur g hcA T).1 hcur
      have hge : g ∈ todo.erase cur := by
        rcases List.mem_append.1 (hp'.symm.subset hg) with hg' | hg'
        · exfalso
          rcases chain_pred _ _ g hch hg' with h | ⟨h, h1, h2⟩
          · rw [hhead] at h
            rw [Option.some.inj h] at hclose
            exact hclose T.goesOn
          · have hh : h ∈ todo0 := hp.subset (by simp [h1])
            have := L.inj (List.mem_append.1 (h0.subset hh)) hcA h2 T
            subst this
            rw [← hp.nodup_iff] at hnd0
            rw [List.nodup_append] at hnd0
            exact hnd0.2.2 h h1 h hc rfl
        · exact hg'
      have hs' : (todo.erase cur).Sublist (E ++ I) := List.erase_sublist.trans hs
      rw [walk_go hno (pick_turn L hs' hcA T hge)]
      obtain ⟨p, t, h1, h2, h3, h4, h5, h6⟩ := ih g (child ++ [cur]) (todo.erase cur) hge (by rw [List.length_erase_of_mem hc]; omega) hp' hs'
        (by rw [List.head?_append, hhead]; rfl) (by
          rw [List.isChain_append]
          refine ⟨hch, by simp, ?_⟩
          intro x hx y hy
          simp at hx hy
          subst hx hy
          exact T)
      exact ⟨p, t, h1, h2, h3, h4, h5, h6.trans List.erase_sublist⟩

end Mcut.Trace
