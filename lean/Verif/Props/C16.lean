import Verif.Lemmas.C16
/-! # C16: the object tables behave as sets keyed by handle -/
namespace Mcut.OList
variable {α : Type}

/-- **C16 (lookup).** For every interleaving of pushes, lookups, traversals and removals by any number of threads: a
finished lookup that returned an element returned one that satisfies the predicate and was in the table when the
lookup began and still when it ended; a finished lookup that returned nothing means that no element that was in the
table throughout the call satisfies the predicate. -/
theorem C16_find (s : St α) (hr : Reach step init s) (r : Res α) (hm : r ∈ s.results) (p : α → Bool)
    (hop : r.op = .find p) :
    (∀ x, r.found = some x → x ∈ r.snap ∧ x ∈ r.final ∧ p x.val = true) ∧
    (r.found = none → ∀ x, x ∈ r.snap → x ∈ r.final → p x.val = false) := by
  have h := (reach_inv s hr).res r hm
  refine ⟨fun x hx => ?_, fun hn x h1 h2 => ?_⟩
  · obtain ⟨a, b, q, hq, hp⟩ := h.some_ x hx
    rw [hop] at hq; injection hq with hq; subst hq
    exact ⟨b, a, hp⟩
  · have h3 := h.fails x (h.none_ hn x h2 h1)
    unfold Op.miss at h3
    rw [hop] at h3; exact h3

/-- **C16 (removal).** When a `remove_if` has finished, no element that was in the table when it began and satisfies the
predicate is left. -/
theorem C16_remove (s : St α) (hr : Reach step init s) (r : Res α) (hm : r ∈ s.results) (p : α → Bool)
    (hop : r.op = .remove p) : ∀ x, x ∈ r.snap → x ∈ r.final → p x.val = false := by
  have h := (reach_inv s hr).res r hm
  intro x h1 h2
  have hn : r.found = none := by
    cases hf : r.found with
    | none => rfl
    | some y => obtain ⟨_, _, q, hq, _⟩ := h.some_ y hf; rw [hop] at hq; cases hq
  have h3 := h.fails x (h.none_ hn x h2 h1)
  unfold Op.miss at h3
  rw [hop] at h3; exact h3

/-- **C16 (only matching elements are removed).** A single step takes an element out of the table only if some thread is
executing a `remove_if` whose predicate holds of that element. -/
theorem C16_removed_only_if_matching (s s' : St α) (hr : Reach step init s) (a : Act α) (hs : step s a = some s')
    (x : Node α) (hx : x ∈ s.nodes) (hx' : x ∉ s'.nodes) :
    ∃ t c p, a = .advance t ∧ s.call t = some c ∧ c.op = .remove p ∧ p x.val = true := by
  have hinv := reach_inv s hr
  cases a with
  | push v =>
    simp only [step] at hs; split at hs
    · cases hs; exact absurd (List.mem_cons_of_mem _ hx) hx'
    · cases hs
  | start t op =>
    simp only [step] at hs; split at hs
    · cases hs; exact absurd hx hx'
    · cases hs
  | advance t =>
    simp only [step] at hs
    split at hs
    · cases hs
    · rename_i c hc
      split at hs
      · cases hs; exact absurd hx hx'
      · rename_i nx rest ha
        have hnx : nx ∈ s.nodes := after_mem s.nodes c.cur nx (by rw [ha]; simp)
        split at hs
        · cases hs
        · split at hs
          · split at hs <;> · cases hs; exact absurd hx hx'
          · cases hs; exact absurd hx hx'
          · rename_i p hop
            split at hs
            · rename_i hp
              cases hs
              refine ⟨t, c, p, rfl, hc, hop, ?_⟩
              have hid : x.id = nx.id := by
                apply Classical.byContradiction; intro hne
                exact hx' (List.mem_filter.mpr ⟨hx, by simpa using hne⟩)
              have : x = nx := by
                have hnd := hinv.ids
                exact List.inj_on_of_nodup_map hnd hx hnx hid
              rw [this]; exact hp
            · cases hs; exact absurd hx hx'

/-- **C16 (traversal).** A finished `for_each` visited each element at most once, in table order, only elements that were
in the table when it began, and every element that stayed in the table throughout. -/
theorem C16_for_each (s : St α) (hr : Reach step init s) (r : Res α) (hm : r ∈ s.results)
    (hop : r.op = .forEach) :
    r.visited.Sublist r.snap ∧ ∀ x, x ∈ r.snap → x ∈ r.final → x ∈ r.visited := by
  have h := (reach_inv s hr).res r hm
  refine ⟨h.sub, fun x h1 h2 => ?_⟩
  have hn : r.found = none := by
    cases hf : r.found with
    | none => rfl
    | some y => obtain ⟨_, _, q, hq, _⟩ := h.some_ y hf; rw [hop] at hq; cases hq
  exact h.none_ hn x h2 h1

/-- **C16 (no dangling node).** A thread in the middle of a call stands on the list head or on a node that is still
linked. -/
theorem C16_no_dangling (s : St α) (hr : Reach step init s) (t : Nat) (c : Call α) (hc : s.call t = some c) :
    c.cur = 0 ∨ ∃ x ∈ s.nodes, x.id = c.cur :=
  ((reach_inv s hr).calls t c hc).alive

/-- **C16 (keyed table, one thread).** For a key function `key` that is injective on the table, the table is a finite
map: an element pushed is found under its key, a key not present finds nothing, and removing a key removes exactly
that element. -/
theorem C16_sequential_map {κ : Type} [DecidableEq κ] (key : α → κ) (l : List α) (k : κ) :
    (∀ v, seqFind (fun x => key x == key v) (seqPushFront v l) = some v) ∧
    (seqFind (fun x => key x == k) l = none ↔ ∀ x ∈ l, key x ≠ k) ∧
    seqFind (fun x => key x == k) (seqRemove (fun x => key x == k) l) = none ∧
    (∀ x, x ∈ seqRemove (fun x => key x == k) l ↔ x ∈ l ∧ key x ≠ k) ∧
    (∀ k', k' ≠ k → seqFind (fun x => key x == k') (seqRemove (fun x => key x == k) l) =
      seqFind (fun x => key x == k') l) := by
  refine ⟨?_, ?_, ?_, ?_, ?_⟩
  · intro v; simp [seqFind, seqPushFront]
  · rw [seqFind_eq]; simp
  · rw [seqFind_eq, seqRemove_eq]; simp
  · intro x; rw [seqRemove_eq]; simp
  · intro k' hk
    rw [seqFind_eq, seqFind_eq, seqRemove_eq]
    induction l with
    | nil => rfl
    | cons x xs ih =>
      by_cases h : key x = k
      · have h2 : ¬ key x = k' := by rw [h]; exact fun e => hk e.symm
        rw [List.filter_cons_of_neg (by simp [h]), List.find?_cons_of_neg (by simpa using h2)]; exact ih
      · rw [List.filter_cons_of_pos (by simpa using h)]
        by_cases h2 : key x = k'
        · rw [List.find?_cons_of_pos (by simpa using h2), List.find?_cons_of_pos (by simpa using h2)]
        · rw [List.find?_cons_of_neg (by simpa using h2), List.find?_cons_of_neg (by simpa using h2)]; exact ih

-- non-vacuity: a lookup of 7 overtakes nobody while another thread removes 8; the lookup finds 7
example : ((runSched step (init : St Nat)
    [.push 7, .push 8, .push 9, .start 1 (.find (· == 7)), .advance 1, .start 2 (.remove (· == 8)), .advance 1, .advance 1]).map
      (fun s => (s.nodes.map Node.val, s.results.map (fun r => r.found.map Node.val)))) = some ([9, 8, 7], [some 7]) := by decide
example : ((runSched step (init : St Nat)
    [.push 7, .push 8, .push 9, .start 2 (.remove (· == 8)), .advance 2, .advance 2, .advance 2, .advance 2]).map
      (fun s => (s.nodes.map Node.val, s.results.length))) = some ([9, 7], 1) := by decide

end Mcut.OList
