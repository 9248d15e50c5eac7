import Verif.Model.OList
import Mathlib.Data.List.Nodup
/-! Helper lemmas for the property file of the same name. -/
namespace Mcut.OList
variable {α : Type}

theorem dropWhile_filter (nodes : List (Node α)) (cur y : Nat) (hy : y ≠ cur) :
    ((nodes.filter (fun x => x.id != y)).dropWhile (fun x => x.id != cur)) =
      (nodes.dropWhile (fun x => x.id != cur)).filter (fun x => x.id != y) := by
  induction nodes with
  | nil => rfl
  | cons x xs ih =>
    by_cases h1 : x.id = y
    · have h2 : x.id ≠ cur := by rw [h1]; exact hy
      rw [List.filter_cons_of_neg (by simp [h1]), List.dropWhile_cons_of_pos (by simpa using h2)]; exact ih
    · rw [List.filter_cons_of_pos (by simpa using h1)]
      by_cases h2 : x.id = cur
      · rw [List.dropWhile_cons_of_neg (by simp [h2]), List.dropWhile_cons_of_neg (by simp [h2]),
          List.filter_cons_of_pos (by simpa using h1)]
      · rw [List.dropWhile_cons_of_pos (by simpa using h2), List.dropWhile_cons_of_pos (by simpa using h2)]; exact ih

theorem dropWhile_head (nodes : List (Node α)) (cur : Nat) (x : Node α) (xs : List (Node α))
    (h : nodes.dropWhile (fun x => x.id != cur) = x :: xs) : x.id = cur := by
  induction nodes with
  | nil => simp at h
  | cons a as ih =>
    by_cases h2 : a.id = cur
    · rw [List.dropWhile_cons_of_neg (by simp [h2])] at h
      injection h with h1 h3; rw [← h1]; exact h2
    · rw [List.dropWhile_cons_of_pos (by simpa using h2)] at h; exact ih h

theorem after_filter (nodes : List (Node α)) (cur y : Nat) (hy : y ≠ cur) :
    after (nodes.filter (fun x => x.id != y)) cur = (after nodes cur).filter (fun x => x.id != y) := by
  unfold after
  split
  · rfl
  · rw [dropWhile_filter nodes cur y hy]
    cases h : nodes.dropWhile (fun x => x.id != cur) with
    | nil => rfl
    | cons x xs =>
      have hx := dropWhile_head nodes cur x xs h
      rw [List.filter_cons_of_pos (by simp [hx, Ne.symm hy])]; rfl

theorem after_push (nodes : List (Node α)) (cur : Nat) (x : Node α) (h0 : cur ≠ 0) (hx : x.id ≠ cur) :
    after (x :: nodes) cur = after nodes cur := by
  unfold after
  rw [if_neg h0, if_neg h0, List.dropWhile_cons_of_pos (by simpa using hx)]

theorem after_mem (nodes : List (Node α)) (cur : Nat) (y : Node α) (h : y ∈ after nodes cur) : y ∈ nodes := by
  unfold after at h
  split at h
  · exact h
  · exact (List.dropWhile_sublist _).mem (List.mem_of_mem_tail h)

theorem after_sublist (nodes : List (Node α)) (cur : Nat) : (after nodes cur).Sublist nodes := by
  unfold after
  split
  · exact List.Sublist.refl _
  · exact (List.tail_sublist _).trans (List.dropWhile_sublist _)

/-- Splitting the list at the cursor. -/
theorem split_at (nodes : List (Node α)) (nx : Node α) (hnd : (nodes.map Node.id).Nodup) (pre rest : List (Node α))
    (h : nodes = pre ++ nx :: rest) (h0 : nx.id ≠ 0) : after nodes nx.id = rest := by
  unfold after
  rw [if_neg h0, h]
  have hpre : ∀ x ∈ pre, x.id ≠ nx.id := by
    intro x hx e
    rw [h, List.map_append, List.map_cons, List.nodup_append] at hnd
    exact hnd.2.2 _ (List.mem_map_of_mem hx) _ (List.mem_cons_self) e
  rw [List.dropWhile_append_of_pos (by intro x hx; simpa using hpre x hx), List.dropWhile_cons_of_neg (by simp)]
  rfl

theorem after_split (nodes : List (Node α)) (cur : Nat) (nx : Node α) (rest : List (Node α))
    (h : after nodes cur = nx :: rest) : ∃ pre, nodes = pre ++ nx :: rest := by
  unfold after at h
  split at h
  · exact ⟨[], h⟩
  · cases hd : nodes.dropWhile (fun x => x.id != cur) with
    | nil => rw [hd] at h; cases h
    | cons x xs =>
      rw [hd] at h
      simp only [List.tail_cons] at h
      refine ⟨nodes.takeWhile (fun x => x.id != cur) ++ [x], ?_⟩
      have := List.takeWhile_append_dropWhile (p := fun x : Node α => x.id != cur) (l := nodes)
      rw [hd, h] at this
      rw [List.append_assoc]; exact this.symm

/-- The verdict on visited nodes: the predicate of the operation is false on them. -/
def Op.miss (op : Op α) (x : Node α) : Prop :=
  match op with
  | .find p => p x.val = false
  | .forEach => True
  | .remove p => p x.val = false

/-- What is true of a call in progress. -/
structure Good (s : St α) (t : Nat) (c : Call α) : Prop where
  held : s.lock c.cur = some t
  alive : c.cur = 0 ∨ ∃ x ∈ s.nodes, x.id = c.cur
  old : ∀ x ∈ c.snap, x.id < s.fresh
  ahead : ∀ x ∈ s.nodes, x ∈ c.snap → x ∈ c.visited ∨ x ∈ after s.nodes c.cur
  sub : (c.visited ++ after s.nodes c.cur).Sublist c.snap
  fails : ∀ x ∈ c.visited, c.op.miss x

/-- What is true of a finished call. -/
structure GoodRes (r : Res α) : Prop where
  sub : r.visited.Sublist r.snap
  fails : ∀ x ∈ r.visited, r.op.miss x
  none_ : r.found = none → ∀ x ∈ r.final, x ∈ r.snap → x ∈ r.visited
  some_ : ∀ x, r.found = some x → x ∈ r.final ∧ x ∈ r.snap ∧ ∃ p, r.op = .find p ∧ p x.val = true

structure Inv (s : St α) : Prop where
  pos : 0 < s.fresh
  ids : (s.nodes.map Node.id).Nodup
  low : ∀ x ∈ s.nodes, 0 < x.id ∧ x.id < s.fresh
  calls : ∀ t c, s.call t = some c → Good s t c
  res : ∀ r ∈ s.results, GoodRes r

theorem inv_init : Inv (init : St α) := by
  refine ⟨by simp [init], by simp [init], by simp [init], ?_, by simp [init]⟩
  intro t c h; simp [init] at h

theorem inv_push (s : St α) (v : α) (h : Inv s) (hl : s.lock 0 = none) :
    Inv { s with
      nodes := ⟨s.fresh, v⟩ :: s.nodes, fresh := s.fresh + 1, added := s.added ++ [⟨s.fresh, v⟩] } := by
  refine ⟨Nat.succ_pos _, ?_, ?_, ?_, h.res⟩
  · simp only [List.map_cons, List.nodup_cons]
    refine ⟨?_, h.ids⟩
    intro hm
    obtain ⟨x, hx, hxe⟩ := List.mem_map.mp hm
    have := (h.low x hx).2; omega
  · intro x hx
    rcases List.mem_cons.mp hx with rfl | hx
    · exact ⟨h.pos, Nat.lt_succ_self _⟩
    · have := h.low x hx; simp only; omega
  · intro t c hc
    have hg := h.calls t c hc
    have h0 : c.cur ≠ 0 := by intro e; have := hg.held; rw [e, hl] at this; cases this
    have hne : s.fresh ≠ c.cur := by
      rcases hg.alive with h' | ⟨x, hx, hxe⟩
      · exact absurd h' h0
      · have := (h.low x hx).2; omega
    have haft : after (⟨s.fresh, v⟩ :: s.nodes) c.cur = after s.nodes c.cur := after_push _ _ _ h0 hne
    refine ⟨hg.held, ?_, ?_, ?_, ?_, hg.fails⟩
    · rcases hg.alive with h' | ⟨x, hx, hxe⟩
      · exact Or.inl h'
      · exact Or.inr ⟨x, List.mem_cons_of_mem _ hx, hxe⟩
    · intro x hx; have := hg.old x hx; simp only; omega
    · intro x hx hs
      simp only at hx ⊢
      rw [haft]
      rcases List.mem_cons.mp hx with rfl | hx
      · have := hg.old _ hs; simp at this
      · exact hg.ahead x hx hs
    · simp only; rw [haft]; exact hg.sub

theorem inv_start (s : St α) (t : Nat) (op : Op α) (h : Inv s) (hc : s.call t = none) (hl : s.lock 0 = none) :
    Inv { s with lock := upd s.lock 0 (some t), call := upd s.call t (some ⟨op, 0, s.nodes, []⟩) } := by
  refine ⟨h.pos, h.ids, h.low, ?_, h.res⟩
  intro u c huc
  by_cases hut : u = t
  · subst hut
    simp only [upd_same, Option.some.injEq] at huc
    subst huc
    refine ⟨by simp, Or.inl rfl, fun x hx => (h.low x hx).2, fun x hx _ => Or.inr (by simpa [after] using hx), ?_, ?_⟩
    · simp [after]
    · intro x hx; simp at hx
  · simp only [upd_other _ _ _ _ hut] at huc
    have hg := h.calls u c huc
    have hne : c.cur ≠ 0 := by intro e; have := hg.held; rw [e, hl] at this; cases this
    exact ⟨by simpa [upd, hne] using hg.held, hg.alive, hg.old, hg.ahead, hg.sub, hg.fails⟩

/-- A call leaves its node: the others keep theirs. -/
theorem inv_finish (s : St α) (t : Nat) (c : Call α) (r : Res α) (h : Inv s) (hc : s.call t = some c)
    (hr : GoodRes r) :
    Inv { s with
      lock := upd s.lock c.cur none, call := upd s.call t none, results := s.results ++ [r] } := by
  have hgt := h.calls t c hc
  refine ⟨h.pos, h.ids, h.low, ?_, ?_⟩
  · intro u d hud
    by_cases hut : u = t
    · subst hut; simp at hud
    · simp only [upd_other _ _ _ _ hut] at hud
      have hg := h.calls u d hud
      have hne : d.cur ≠ c.cur := by
        intro e; have := hg.held; rw [e, hgt.held] at this; injection this with e'; exact hut e'.symm
      exact ⟨by simpa [upd, hne] using hg.held, hg.alive, hg.old, hg.ahead, hg.sub, hg.fails⟩
  · intro r' hr'
    rcases List.mem_append.mp hr' with hr' | hr'
    · exact h.res r' hr'
    · simp at hr'; subst hr'; exact hr

theorem inv_move (s : St α) (t : Nat) (c : Call α) (nx : Node α) (rest : List (Node α)) (h : Inv s)
    (hc : s.call t = some c) (ha : after s.nodes c.cur = nx :: rest) (hl : s.lock nx.id = none)
    (hm : c.op.miss nx) :
    Inv { s with
      lock := upd (upd s.lock c.cur none) nx.id (some t)
      call := upd s.call t (some { c with cur := nx.id, visited := c.visited ++ [nx] }) } := by
  have hgt := h.calls t c hc
  have hnx : nx ∈ s.nodes := after_mem s.nodes c.cur nx (by rw [ha]; simp)
  have hn0 : nx.id ≠ 0 := by have := (h.low nx hnx).1; omega
  obtain ⟨pre, hpre⟩ := after_split s.nodes c.cur nx rest ha
  have haft : after s.nodes nx.id = rest := split_at s.nodes nx h.ids pre rest hpre hn0
  refine ⟨h.pos, h.ids, h.low, ?_, h.res⟩
  intro u d hud
  by_cases hut : u = t
  · subst hut
    simp only [upd_same, Option.some.injEq] at hud
    subst hud
    refine ⟨by simp, Or.inr ⟨nx, hnx, rfl⟩, hgt.old, ?_, ?_, ?_⟩
    · intro x hx hs
      simp only
      rw [haft]
      rcases hgt.ahead x hx hs with h1 | h1
      · exact Or.inl (List.mem_append_left _ h1)
      · rw [ha] at h1
        rcases List.mem_cons.mp h1 with rfl | h1
        · exact Or.inl (by simp)
        · exact Or.inr h1
    · simp only
      rw [haft, List.append_assoc]
      have := hgt.sub
      rw [ha] at this
      simpa using this
    · intro x hx
      rcases List.mem_append.mp hx with h1 | h1
      · exact hgt.fails x h1
      · simp at h1; subst h1; exact hm
  · simp only [upd_other _ _ _ _ hut] at hud
    have hg := h.calls u d hud
    have hne : d.cur ≠ c.cur := by
      intro e; have := hg.held; rw [e, hgt.held] at this; injection this with e'; exact hut e'.symm
    have hne2 : d.cur ≠ nx.id := by
      intro e; have := hg.held; rw [e, hl] at this; cases this
    exact ⟨by simpa [upd, hne, hne2] using hg.held, hg.alive, hg.old, hg.ahead, hg.sub, hg.fails⟩

theorem inv_unlink (s : St α) (nx : Node α) (h : Inv s) (hl : s.lock nx.id = none) :
    Inv { s with nodes := s.nodes.filter (fun x => x.id != nx.id) } := by
  refine ⟨h.pos, ?_, ?_, ?_, h.res⟩
  · exact h.ids.sublist (List.filter_sublist.map _)
  · intro x hx; exact h.low x (List.mem_of_mem_filter hx)
  · intro u d hud
    have hg := h.calls u d hud
    have hne : nx.id ≠ d.cur := by
      intro e; have := hg.held; rw [← e, hl] at this; cases this
    have haft := after_filter s.nodes d.cur nx.id hne
    refine ⟨hg.held, ?_, hg.old, ?_, ?_, hg.fails⟩
    · rcases hg.alive with h' | ⟨x, hx, hxe⟩
      · exact Or.inl h'
      · refine Or.inr ⟨x, ?_, hxe⟩
        simp only [List.mem_filter]
        exact ⟨hx, by rw [hxe]; simpa using hne.symm⟩
    · intro x hx hs
      simp only [List.mem_filter] at hx
      simp only
      rw [haft]
      rcases hg.ahead x hx.1 hs with h1 | h1
      · exact Or.inl h1
      · exact Or.inr (List.mem_filter.mpr ⟨h1, hx.2⟩)
    · simp only
      rw [haft]
      exact (List.Sublist.append (List.Sublist.refl _) List.filter_sublist).trans hg.sub

theorem inv_step (s : St α) (a : Act α) (s' : St α) (h : Inv s) (hs : step s a = some s') : Inv s' := by
  cases a with
  | push v =>
    simp only [step] at hs; split at hs
    · rename_i hl; cases hs; exact inv_push s v h hl
    · cases hs
  | start t op =>
    simp only [step] at hs; split at hs
    · rename_i hl; cases hs; exact inv_start s t op h hl.1 hl.2
    · cases hs
  | advance t =>
    simp only [step] at hs
    split at hs
    · cases hs
    · rename_i c hc
      have hg := h.calls t c hc
      split at hs
      · rename_i ha
        cases hs
        refine inv_finish s t c _ h hc ⟨?_, hg.fails, ?_, ?_⟩
        · have := hg.sub; rw [ha, List.append_nil] at this; exact this
        · intro _ x hx hxs
          rcases hg.ahead x hx hxs with h1 | h1
          · exact h1
          · rw [ha] at h1; cases h1
        · intro x hx; cases hx
      · rename_i nx rest ha
        have hnx : nx ∈ s.nodes := after_mem s.nodes c.cur nx (by rw [ha]; simp)
        have hsnap : nx ∈ c.snap := hg.sub.mem (by rw [ha]; simp)
        split at hs
        · cases hs
        · rename_i hl
          have hl : s.lock nx.id = none := Classical.byContradiction hl
          split at hs
          · rename_i p hop
            split at hs
            · rename_i hp
              cases hs
              refine inv_finish s t c _ h hc ⟨?_, hg.fails, ?_, ?_⟩
              · exact (List.sublist_append_left _ _).trans hg.sub
              · intro hx; cases hx
              · intro x hx; simp at hx; subst hx; exact ⟨hnx, hsnap, p, hop, hp⟩
            · rename_i hp
              cases hs
              exact inv_move s t c nx rest h hc ha hl (by unfold Op.miss; rw [hop]; simpa using hp)
          · rename_i hop
            cases hs
            exact inv_move s t c nx rest h hc ha hl (by unfold Op.miss; rw [hop]; trivial)
          · rename_i p hop
            split at hs
            · cases hs; exact inv_unlink s nx h hl
            · rename_i hp
              cases hs
              exact inv_move s t c nx rest h hc ha hl (by unfold Op.miss; rw [hop]; simpa using hp)

theorem reach_inv (s : St α) (hr : Reach step init s) : Inv s := Reach.inv inv_step inv_init hr

theorem seqFind_eq (p : α → Bool) (l : List α) : seqFind p l = l.find? p := by
  induction l with
  | nil => rfl
  | cons x xs ih => simp only [seqFind, List.find?_cons, ih]; cases p x <;> simp

theorem seqRemove_eq (p : α → Bool) (l : List α) : seqRemove p l = l.filter (fun x => !p x) := by
  induction l with
  | nil => rfl
  | cons x xs ih => simp only [seqRemove, List.filter_cons, ih]; cases p x <;> simp

end Mcut.OList
