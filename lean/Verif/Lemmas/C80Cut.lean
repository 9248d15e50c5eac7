import Verif.Lemmas.C80
import Verif.Lemmas.C79Cut

/-! Lemmas for C80: which patches are neighbours. -/
namespace Mcut.Patches
open Mcut.Hmesh Mcut.Extract Mcut.Registry Mcut.CutEdges Mcut.Boundary Mcut.Trace Mcut.Split Mcut.CutPaths
variable {P : Type} {d : P} {ps : Mesh P} {base : Nat} {pts : Nat → List Nat} {sort : Nat → Nat → List Nat → List Nat} {edges : List Nat} {c : CutEdges.St P} {st : Boundary.St P}
  {pieces : Nat → List Nat} {reg : List (Nat × Nat)} {smV smF n : Nat} {o : Out} {T : Nat → List Nat} {poly : Nat → List (List Nat)}

/-- The lookups succeed if all seeds have patches. -/
theorem neighbours_spec {table : List (Nat × Nat)} {a b : Nat → Nat × Nat} {pa pb : Nat → Nat} : ∀ (l : List Nat), (∀ k ∈ l, patchOf table (a k).1 = some (pa k) ∧ patchOf table (b k).1 = some (pb k)) →
    neighbours table (l.flatMap (fun k => [a k, b k])) = some (l.map (fun k => (pa k, pb k))) := by
  intro l
  induction l with
  | nil => intro _; rfl
  | cons k l ih =>
    intro h
    rw [List.flatMap_cons]
    show neighbours table (a k :: b k :: l.flatMap (fun k => [a k, b k])) = _
    rw [neighbours, (h k List.mem_cons_self).1, Option.bind_some, (h k List.mem_cons_self).2, Option.bind_some, ih (fun z hz => h z (List.mem_cons_of_mem _ hz))]
    rfl

/-- Spec of the neighbours: two patches are neighbours exactly if a cut edge separates them. -/
theorem CutFacts.neighbours (C : CutFacts d ps smV smF base pts sort edges c st pieces reg n o T poly) {seqs : List (List Nat)} (Q : Sequences (endsOf c.m0) c.cutEdges seqs)
    {pool : List (Nat × Nat)} (hpool : Patches.seeds o.polygons o.smCount T seqs (List.range seqs.length) = some pool) {s : Found}
    (PS : PatchesOf o.polygons o.smCount (2 * c.m0.nE) s.patches) (TS : TableOf s.patches s.table) :
    ∃ adj, Patches.neighbours s.table pool = some adj ∧ (∀ e ∈ adj, e.1 < s.patches.length ∧ e.2 < s.patches.length) ∧
      (∀ e ∈ adj, ∃ l l' i j, s.patches[e.1]? = some l ∧ s.patches[e.2]? = some l' ∧ i ∈ l ∧ j ∈ l' ∧ Across o.polygons o.smCount (2 * c.m0.nE) i j) ∧
      ∀ i j k k' l l', Across o.polygons o.smCount (2 * c.m0.nE) i j → s.patches[k]? = some l → s.patches[k']? = some l' → i ∈ l → j ∈ l' → (k, k') ∈ adj ∨ (k', k) ∈ adj := by
  obtain ⟨pool', hpool', a, b, e, hab⟩ := C.seeds Q (List.range seqs.length) (fun k hk => List.mem_range.1 hk)
  rw [hpool] at hpool'
  obtain rfl := Option.some.inj hpool'
  -- the seeds are polygons at the first edges, on both sides
  have hseed : ∀ k ∈ List.range seqs.length, ∃ seq e, seqs[k]? = some seq ∧ seq.head? = some e ∧ e < c.m0.nE ∧ InCut o.polygons o.smCount (a k).1 (halfedgeOf e 0) ∧
      InCut o.polygons o.smCount (b k).1 (halfedgeOf e 1) := by
    intro k hk
    obtain ⟨seq, e, h1, h2, h3, h4, h5⟩ := hab k hk
    obtain ⟨i, m, p, g1, g2, -⟩ := C.seed (x := halfedgeOf e 0) (by unfold edgeOf halfedgeOf; omega)
    obtain ⟨i', m', p', g1', g2', -⟩ := C.seed (x := halfedgeOf e 1) (by unfold edgeOf halfedgeOf; omega)
    rw [h4] at g1
    rw [h5] at g1'
    refine ⟨seq, e, h1, h2, h3, ?_, ?_⟩
    · rw [Option.some.inj g1]; exact g2
    · rw [Option.some.inj g1']; exact g2'
  have hidx : ∀ i, AtCut o.polygons o.smCount (2 * c.m0.nE) i → ∃ k l, patchOf s.table i = some k ∧ s.patches[k]? = some l ∧ i ∈ l := by
    intro i hi
    obtain ⟨l, h1, h2⟩ := PS.every i hi
    obtain ⟨k, hk⟩ := List.mem_iff_getElem?.1 h1
    exact ⟨k, l, (TS i k).2 ⟨l, hk, h2⟩, hk, h2⟩
  have hlook : ∀ k, ∃ r : Nat × Nat, k ∈ List.range seqs.length → patchOf s.table (a k).1 = some r.1 ∧ patchOf s.table (b k).1 = some r.2 := by
    intro k
    by_cases hk : k ∈ List.range seqs.length
    · obtain ⟨seq, e, -, -, h3, h4, h5⟩ := hseed k hk
      obtain ⟨r1, -, q1, -⟩ := hidx _ ⟨_, h4, by unfold halfedgeOf; omega⟩
      obtain ⟨r2, -, q2, -⟩ := hidx _ ⟨_, h5, by unfold halfedgeOf; omega⟩
      exact ⟨(r1, r2), fun _ => ⟨q1, q2⟩⟩
    · exact ⟨(0, 0), fun h => absurd h hk⟩
  choose pr hpr using hlook
  refine ⟨_, by rw [e]; exact neighbours_spec (pa := fun k => (pr k).1) (pb := fun k => (pr k).2) _ hpr, ?_, ?_, ?_⟩
  · intro x hx
    obtain ⟨k, hk, rfl⟩ := List.mem_map.1 hx
    obtain ⟨h1, h2⟩ := hpr k hk
    obtain ⟨l, l1, -⟩ := (TS _ _).1 h1
    obtain ⟨l', l2, -⟩ := (TS _ _).1 h2
    exact ⟨(List.getElem?_eq_some_iff.1 l1).1, (List.getElem?_eq_some_iff.1 l2).1⟩
  · intro x hx
    obtain ⟨k, hk, rfl⟩ := List.mem_map.1 hx
    obtain ⟨h1, h2⟩ := hpr k hk
    obtain ⟨l, l1, m1⟩ := (TS _ _).1 h1
    obtain ⟨l', l2, m2⟩ := (TS _ _).1 h2
    obtain ⟨seq, e, -, -, h3, h4, h5⟩ := hseed k hk
    refine ⟨l, l', _, _, l1, l2, m1, m2, _, h4, ?_, by unfold halfedgeOf; omega⟩
    have : opposite (halfedgeOf e 0) = halfedgeOf e 1 := by unfold opposite halfedgeOf; split <;> omega
    rw [this]; exact h5
  · rintro i j k k' l l' ⟨x, hi, hj, hx⟩ hl hl' hil hjl
    obtain ⟨seq, s1, -, e0, x0, h0, h1, h2⟩ := C.first Q (cut_lt.1 hx)
    obtain ⟨m, hm⟩ := List.mem_iff_getElem?.1 s1
    have hm' : m ∈ List.range seqs.length := List.mem_range.2 (List.getElem?_eq_some_iff.1 hm).1
    obtain ⟨seq', e', k1, k2, k3, k4, k5⟩ := hseed m hm'
    rw [hm] at k1
    obtain rfl := Option.some.inj k1
    rw [h0] at k2
    obtain rfl := Option.some.inj k2
    obtain ⟨p1, p2⟩ := hpr m hm'
    -- the patch of a polygon is unique
    have uniq : ∀ i' kk, patchOf s.table i' = some kk → ∀ i k l, s.patches[k]? = some l → i ∈ l → SamePatch o.polygons o.smCount (2 * c.m0.nE) i' i → kk = k := by
      intro i' kk hkk i k l hl hil hs
      have hin : i' ∈ l := ((PS.whole l (List.mem_of_getElem? hl)).2.2 i hil i').2 (.symm _ _ hs)
      have := (TS i' k).2 ⟨l, hl, hin⟩
      rw [hkk] at this
      exact Option.some.inj this
    have o1 : opposite (halfedgeOf e0 0) = halfedgeOf e0 1 := by unfold opposite halfedgeOf; split <;> omega
    have o2 : opposite (halfedgeOf e0 1) = halfedgeOf e0 0 := by unfold opposite halfedgeOf; split <;> omega
    have hx0 : x0 = halfedgeOf e0 0 ∨ x0 = halfedgeOf e0 1 := by unfold edgeOf at h1; unfold halfedgeOf; omega
    rcases hx0 with h | h
    · subst h
      left
      have e1 := uniq _ _ p1 i k l hl hil (h2.1 _ _ k4 hi)
      have e2 := uniq _ _ p2 j k' l' hl' hjl (h2.2 _ _ (by rw [o1]; exact k5) hj)
      exact List.mem_map.2 ⟨m, hm', by rw [e1, e2]⟩
    · subst h
      right
      have e1 := uniq _ _ p2 i k l hl hil (h2.1 _ _ k5 hi)
      have e2 := uniq _ _ p1 j k' l' hl' hjl (h2.2 _ _ (by rw [o2]; exact k4) hj)
      exact List.mem_map.2 ⟨m, hm', by rw [e1, e2]⟩

theorem parity (a b z : Prop) : ((a ↔ z) ↔ (b ↔ z)) ↔ (a ↔ b) := by
  by_cases u : a <;> by_cases v : b <;> by_cases w : z <;> simp [u, v, w]

/-- The colours. -/
theorem CutFacts.colours (C : CutFacts d ps smV smF base pts sort edges c st pieces reg n o T poly) {s : Found}
    (PS : PatchesOf o.polygons o.smCount (2 * c.m0.nE) s.patches) (some' : 0 < c.m0.nE) {adj : List (Nat × Nat)}
    (hlt : ∀ e ∈ adj, e.1 < s.patches.length ∧ e.2 < s.patches.length)
    (hacr : ∀ e ∈ adj, ∃ l l' i j, s.patches[e.1]? = some l ∧ s.patches[e.2]? = some l' ∧ i ∈ l ∧ j ∈ l' ∧ Across o.polygons o.smCount (2 * c.m0.nE) i j)
    (hadj : ∀ i j k k' l l', Across o.polygons o.smCount (2 * c.m0.nE) i j → s.patches[k]? = some l → s.patches[k']? = some l' → i ∈ l → j ∈ l' → (k, k') ∈ adj ∨ (k', k) ∈ adj)
    {out : Nat → Prop} (two : TwoSided o.polygons o.smCount (2 * c.m0.nE) out) (con : EdgeConnected o.polygons o.smCount (2 * c.m0.nE)) {keys : List Nat} (hkeys : KeysOf adj keys) :
    ∃ red, redOf s.patches.length adj = some red ∧ ColoursOf s.patches out red (blueOf keys red) := by
  have stays : ∀ i j, SamePatch o.polygons o.smCount (2 * c.m0.nE) i j → (out i ↔ out j) := fun i j r => class_closed two.stays r
  have other : ∀ i, AtCut o.polygons o.smCount (2 * c.m0.nE) i → ∃ j, Across o.polygons o.smCount (2 * c.m0.nE) i j ∧ AtCut o.polygons o.smCount (2 * c.m0.nE) j := by
    rintro i ⟨x, hi, hx⟩
    obtain ⟨j, hj⟩ := C.exists (x := opposite x) (by rw [edge_opp]; exact cut_lt.1 hx)
    exact ⟨j, ⟨x, hi, hj, hx⟩, opposite x, hj, by rw [cut_lt, edge_opp]; exact cut_lt.1 hx⟩
  have hpos : 0 < s.patches.length := by
    obtain ⟨i, hi⟩ := C.exists (x := 0) some'
    obtain ⟨l, hl, -⟩ := PS.every i ⟨0, hi, by omega⟩
    exact List.length_pos_of_mem hl
  have idx : ∀ i, AtCut o.polygons o.smCount (2 * c.m0.nE) i → ∃ (k : Nat) (l : List Nat), s.patches[k]? = some l ∧ i ∈ l := by
    intro i hi
    obtain ⟨l, h1, h2⟩ := PS.every i hi
    obtain ⟨k, hk⟩ := List.mem_iff_getElem?.1 h1
    exact ⟨k, l, hk, h2⟩
  have uniq : ∀ (i k k' : Nat) (l l' : List Nat), s.patches[k]? = some l → s.patches[k']? = some l' → i ∈ l → i ∈ l' → k = k' := by
    intro i k k' l l' hl hl' hi hi'
    obtain ⟨a1, a2⟩ := List.getElem?_eq_some_iff.1 hl
    obtain ⟨b1, b2⟩ := List.getElem?_eq_some_iff.1 hl'
    have pw := List.pairwise_iff_getElem.1 PS.disjoint
    rcases Nat.lt_trichotomy k k' with h | h | h
    · exact absurd hi' (fun h' => pw k k' a1 b1 h (a2 ▸ hi) (b2 ▸ h'))
    · exact h
    · exact absurd hi (fun h' => pw k' k b1 a1 h (b2 ▸ hi') (a2 ▸ h'))
  let lab : Nat → Prop := fun k => ∃ l i, s.patches[k]? = some l ∧ i ∈ l ∧ out i
  have hlab : ∀ k l i, s.patches[k]? = some l → i ∈ l → (lab k ↔ out i) := by
    intro k l i hl hi
    constructor
    · rintro ⟨l', j, hl', hj, hout⟩
      rw [hl] at hl'
      obtain rfl := Option.some.inj hl'
      exact (stays _ _ (((PS.whole l (List.mem_of_getElem? hl)).2.2 i hi j).1 hj)).2 hout
    · intro h; exact ⟨l, i, hl, hi, h⟩
  have cross : ∀ e ∈ adj, lab e.1 ↔ ¬ lab e.2 := by
    intro e he
    obtain ⟨l, l', i, j, h1, h2, h3, h4, h5⟩ := hacr e he
    rw [hlab _ _ _ h1 h3, hlab _ _ _ h2 h4]
    exact two.turns i j h5
  -- connectedness of the graph
  have walk : ∀ i j, Relation.EqvGen (fun a b => Beside o.polygons o.smCount (2 * c.m0.nE) a b ∨ Across o.polygons o.smCount (2 * c.m0.nE) a b) i j →
      (∀ (k : Nat) (l : List Nat), s.patches[k]? = some l → i ∈ l → ∃ (k' : Nat) (l' : List Nat), s.patches[k']? = some l' ∧ j ∈ l' ∧ Relation.EqvGen (fun a b => (a, b) ∈ adj) k k') ∧
      (∀ (k : Nat) (l : List Nat), s.patches[k]? = some l → j ∈ l → ∃ (k' : Nat) (l' : List Nat), s.patches[k']? = some l' ∧ i ∈ l' ∧ Relation.EqvGen (fun a b => (a, b) ∈ adj) k k') := by
    intro i j r
    induction r with
    | rel x y h =>
      rcases h with h | h
      · have sp : SamePatch o.polygons o.smCount (2 * c.m0.nE) x y := .rel _ _ h
        refine ⟨fun k l hl hx => ⟨k, l, hl, ((PS.whole l (List.mem_of_getElem? hl)).2.2 x hx y).2 sp, .refl _⟩, fun k l hl hx => ⟨k, l, hl, ((PS.whole l (List.mem_of_getElem? hl)).2.2 y hx x).2 (.symm _ _ sp), .refl _⟩⟩
      · have ax : AtCut o.polygons o.smCount (2 * c.m0.nE) x := by obtain ⟨z, h1, -, h3⟩ := h; exact ⟨z, h1, h3⟩
        have ay : AtCut o.polygons o.smCount (2 * c.m0.nE) y := by obtain ⟨z, -, h2, h3⟩ := h; exact ⟨_, h2, by rw [cut_lt, edge_opp]; exact cut_lt.1 h3⟩
        constructor
        · intro k l hl hx
          obtain ⟨k', l', hl', hy⟩ := idx y ay
          refine ⟨k', l', hl', hy, ?_⟩
          rcases hadj x y k k' l l' h hl hl' hx hy with h | h
          · exact .rel _ _ h
          · exact .symm _ _ (.rel _ _ h)
        · intro k l hl hy
          obtain ⟨k', l', hl', hx⟩ := idx x ax
          refine ⟨k', l', hl', hx, ?_⟩
          rcases hadj x y k' k l' l h hl' hl hx hy with h | h
          · exact .symm _ _ (.rel _ _ h)
          · exact .rel _ _ h
    | refl x => exact ⟨fun k l hl hx => ⟨k, l, hl, hx, .refl _⟩, fun k l hl hx => ⟨k, l, hl, hx, .refl _⟩⟩
    | symm x y _ ih => exact ⟨ih.2, ih.1⟩
    | trans x y z _ _ a b =>
      constructor
      · intro k l hl hx
        obtain ⟨k1, l1, h1, h2, h3⟩ := a.1 k l hl hx
        obtain ⟨k2, l2, h4, h5, h6⟩ := b.1 k1 l1 h1 h2
        exact ⟨k2, l2, h4, h5, .trans _ _ _ h3 h6⟩
      · intro k l hl hx
        obtain ⟨k1, l1, h1, h2, h3⟩ := b.2 k l hl hx
        obtain ⟨k2, l2, h4, h5, h6⟩ := a.2 k1 l1 h1 h2
        exact ⟨k2, l2, h4, h5, .trans _ _ _ h3 h6⟩
  have at' : ∀ k, k < s.patches.length → ∃ (l : List Nat) (i : Nat), s.patches[k]? = some l ∧ i ∈ l ∧ AtCut o.polygons o.smCount (2 * c.m0.nE) i := by
    intro k hk
    obtain ⟨i, h1, h2⟩ := PS.cut _ (List.getElem_mem hk)
    exact ⟨_, i, List.getElem?_eq_getElem hk, h1, h2⟩
  obtain ⟨red, h1, h2, h3⟩ := redOf_spec (lab := lab) hpos hlt cross (fun k hk => by
    obtain ⟨l, i, a1, a2, a3⟩ := at' 0 hpos
    obtain ⟨l', j, b1, b2, b3⟩ := at' k hk
    obtain ⟨k', l2, c1, c2, c3⟩ := (walk i j (con i j a3 b3)).1 0 l a1 a2
    rw [uniq j k k' l' l2 b1 c1 b2 c2]
    exact c3)
  have hk : ∀ k, k ∈ keys ↔ k < s.patches.length := by
    intro k
    rw [hkeys.2]
    constructor
    · rintro ⟨e, he, rfl | rfl⟩
      · exact (hlt e he).1
      · exact (hlt e he).2
    · intro hk
      obtain ⟨l, i, a1, a2, a3⟩ := at' k hk
      obtain ⟨j, b1, b2⟩ := other i a3
      obtain ⟨k', l', c1, c2⟩ := idx j b2
      rcases hadj i j k k' l l' b1 a1 c1 a2 c2 with h | h
      · exact ⟨_, h, .inl rfl⟩
      · exact ⟨_, h, .inr rfl⟩
  refine ⟨red, h1, ?_, ?_, ?_⟩
  · rw [List.nodup_append]
    refine ⟨h2, hkeys.1.filter _, ?_⟩
    intro a ha b hb e
    subst e
    have := (List.mem_filter.1 hb).2
    simp [ha] at this
  · intro k
    unfold blueOf
    rw [List.mem_append, List.mem_filter, hk]
    constructor
    · rintro (h | h)
      · exact ((h3 k).1 h).1
      · exact h.1
    · intro h
      by_cases hr : k ∈ red
      · exact .inl hr
      · exact .inr ⟨h, by simpa using hr⟩
  · intro k k' l l' i i' hl hl' hi hi'
    have hk1 := (List.getElem?_eq_some_iff.1 hl).1
    have hk2 := (List.getElem?_eq_some_iff.1 hl').1
    rw [h3, h3, ← hlab k l i hl hi, ← hlab k' l' i' hl' hi']
    simp only [hk1, hk2, true_and]
    exact parity _ _ _

end Mcut.Patches
