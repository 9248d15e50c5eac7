import Verif.Lemmas.C79Cut
import Verif.Lemmas.C76Main
import Verif.Spec.C80

/-! Lemmas for C80: the polygons of the cut mesh that are known to lie outside. -/
namespace Mcut.Patches
open Mcut.Hmesh Mcut.Extract Mcut.Registry Mcut.CutEdges Mcut.Boundary Mcut.Trace Mcut.Split Mcut.CutPaths
variable {P : Type} {d : P} {ps : Mesh P} {base : Nat} {pts : Nat → List Nat} {sort : Nat → Nat → List Nat → List Nat} {edges : List Nat} {c : CutEdges.St P} {st : Boundary.St P}
  {pieces : Nat → List Nat} {reg : List (Nat × Nat)} {smV smF n : Nat} {o : Out} {T : Nat → List Nat} {poly : Nat → List (List Nat)}
  {falls : Nat → Nat → Nat → Option Bool} {down : Nat → Nat → Prop} {path : Nat → Option Nat} {holes : List Nat}

/-- What one halfedge says. -/
theorem CutFacts.leadsIn (C : CutFacts d ps smV smF base pts sort edges c st pieces reg n o T poly)
    (hfalls : ∀ h g x, Arrives ps st.m0 base pts sort pieces reg h g x → ∃ b, falls g (src st.m0 x) (st.m0.target x) = some b ∧ (b = true ↔ down h g))
    (hpath : ∀ v, base ≤ v → v < st.m0.nV → (∃ e ∈ c.cutEdges, (endsOf c.m0 e).1 = v ∨ (endsOf c.m0 e).2 = v) → ∃ q, path v = some q ∧ holes.contains q = true)
    {i : Nat} {p : List Nat} (hi : o.smCount ≤ i) (hp : o.polygons[i]? = some p) {x : Nat} (hx : x ∈ p) :
    ∃ b, Trace.leadsIn ps st.m0 smV smF base reg falls path holes x = some b ∧ (b = true ↔ EntersAt ps st.m0 smF base pts sort pieces reg down o i x) := by
  obtain ⟨f, f1, f2, f3, f4⟩ := C.face hi hp
  have F := C.F
  have G := F.G
  have hlf := (F.live f).1 f3
  have hxl : x ∈ (poly f).flatten := List.mem_flatten.2 ⟨p, f4, hx⟩
  have hlive := (F.uses f f3).live x hxl
  unfold Trace.leadsIn
  by_cases hb : st.m0.target x < base
  · rw [if_pos hb]
    refine ⟨false, rfl, ⟨(fun h => by cases h), ?_⟩⟩
    rintro ⟨_, _, _, _, _, _, _, _, A, _⟩
    have := A.point.1
    omega
  rw [if_neg hb]
  have hpt : ∀ e ∈ c.cutEdges, ∀ v, EndsIn c.m0 e v → (endsOf c.m0 e).1 = v ∨ (endsOf c.m0 e).2 = v := fun e _ v h => h
  have hnV : st.m0.target x < st.m0.nV := ((reachable_wf G.divided.valid).half _ hlive).2.2.1.1
  by_cases hcut : edgeOf x < c.m0.nE
  · -- a cut halfedge
    have hxc := (F.uses f f3).cut x hxl hcut
    obtain ⟨e1, e2⟩ := joins_endsIn (G.joins hxc)
    have hsb := G.cutEnds f _ hxc _ e1
    obtain ⟨q, q1, q2⟩ := hpath (st.m0.target x) (by omega) hnV ⟨edgeOf x, (C.all _).2 hcut, hpt _ ((C.all _).2 hcut) _ e2⟩
    rw [q1, Option.bind_some, if_pos q2]
    obtain ⟨r, hr⟩ := Option.isSome_iff_exists.1 (F.X.known f _ hxc _ e2)
    obtain ⟨r', hr'⟩ := Option.isSome_iff_exists.1 (F.X.known f _ hxc _ e1)
    have hne : r'.1 ≠ r.1 := by
      intro e
      have ha := G.apart f _ hxc
      have hj := G.joins hxc
      apply ha
      rcases hj with ⟨j1, j2⟩ | ⟨j1, j2⟩
      · rw [j1, j2, hr, hr', Option.map_some, Option.map_some, e]
      · rw [j1, j2, hr, hr', Option.map_some, Option.map_some, e]
    rw [hr, Option.bind_some, if_neg (by omega), hr', Option.bind_some, if_neg hne]
    refine ⟨false, rfl, ⟨(fun h => by cases h), ?_⟩⟩
    rintro ⟨_, _, h, _, _, _, _, _, A, _⟩
    have := (G.pieceLive (((reachable_wf G.ready.psOk).liveH_iff h).1 A.part.1) _ A.part.2.2.1).2
    omega
  · have hxo := ((F.uses f f3).boundary x (by omega)).1 hxl
    obtain ⟨h, hh, hxs⟩ := List.mem_flatMap.1 hxo
    have hlh := (G.live hlf hh).1
    have hpart := (G.part_iff hlh).2 hxs
    obtain ⟨-, -, -, h4⟩ := G.on_side hlf hh hxs
    have hv : st.m0.target x ∈ pts (edgeOf h) := by
      rcases h4 with h4 | h4
      · have := (G.old hlf hh).2; omega
      · exact h4
    obtain ⟨a, a1, a2⟩ := F.X.ends (edgeOf h) f _ (G.live hlf hh).2.1 (G.onEdge hlf hh) hv
    have ha : a ∈ c.cutEdges := (C.all a).2 (G.cutLt f a a1)
    obtain ⟨q, q1, q2⟩ := hpath (st.m0.target x) (by omega) hnV ⟨a, ha, hpt _ ha _ a2⟩
    rw [q1, Option.bind_some, if_pos q2]
    obtain ⟨m, g, hn, hr⟩ := (G.points _ _).1 hv
    have hr' : reg[st.m0.target x - base]? = some (edgeOf h, g) := by rw [hn, Nat.add_sub_cancel_left]; exact hr
    have A : Arrives ps st.m0 base pts sort pieces reg h g x := ⟨hpart, by omega, hr'⟩
    obtain ⟨b, hfb, hbd⟩ := hfalls h g x A
    have hent : enters ps st.m0 smV smF falls (edgeOf h, g) x = some b := by
      unfold enters
      rw [tested F.X (List.mem_of_getElem? hr), Option.bind_some]; exact hfb
    have fin : b = true ↔ EntersAt ps st.m0 smF base pts sort pieces reg down o i x := by
      rw [hbd]
      constructor
      · intro hd
        exact ⟨f, p, h, g, f1, f2, hp, hx, A, hd⟩
      · rintro ⟨_, _, h', g', _, _, _, _, A', hd⟩
        obtain rfl := G.part_one A.part A'.part
        have := A.point.2.symm.trans A'.point.2
        simp only [Option.some.injEq, Prod.mk.injEq, true_and] at this
        rw [this]; exact hd
    rw [hr', Option.bind_some]
    by_cases hs : src st.m0 x < base
    · rw [if_pos hs, hent]
      exact ⟨b, rfl, fin⟩
    · rw [if_neg hs]
      have hw := (G.new_part hpart).1 (by omega)
      obtain ⟨m', g', hn', hr2⟩ := (G.points _ _).1 hw
      rw [show reg[src st.m0 x - base]? = some (edgeOf h, g') by rw [hn', Nat.add_sub_cancel_left]; exact hr2, Option.bind_some, if_pos rfl, hent]
      exact ⟨b, rfl, fin⟩

/-- The first halfedge that leads in. -/
theorem firstIn_spec {m0 : Mesh P} {Q : Nat → Prop} : ∀ (p : List Nat) (k : Nat), (∀ x ∈ p, ∃ b, Trace.leadsIn ps m0 smV smF base reg falls path holes x = some b ∧ (b = true ↔ Q x)) →
    ∃ r, firstIn ps m0 smV smF base reg falls path holes k p = some r ∧ (r = none → ∀ x ∈ p, ¬ Q x) ∧
      ∀ j, r = some j → ∃ i x, j = k + i ∧ p[i]? = some x ∧ Q x ∧ ∀ i' y, i' < i → p[i']? = some y → ¬ Q y := by
  intro p
  induction p with
  | nil => intro k _; exact ⟨none, rfl, (fun _ x hx => by cases hx), (fun j h => by cases h)⟩
  | cons x p ih =>
    intro k h
    obtain ⟨b, hb, hq⟩ := h x List.mem_cons_self
    unfold firstIn
    rw [hb, Option.bind_some]
    cases b with
    | true =>
      rw [if_pos rfl]
      refine ⟨_, rfl, (fun h => by cases h), ?_⟩
      intro j hj
      injection hj with hj
      exact ⟨0, x, by omega, rfl, hq.1 rfl, fun i' y h' => absurd h' (by omega)⟩
    | false =>
      have hnx : ¬ Q x := fun h => by have := hq.2 h; cases this
      rw [if_neg (by simp)]
      obtain ⟨r, h1, h2, h3⟩ := ih (k + 1) (fun y hy => h y (List.mem_cons_of_mem _ hy))
      refine ⟨r, h1, ?_, ?_⟩
      · intro hr y hy
        rcases List.mem_cons.1 hy with hy | hy
        · rw [hy]; exact hnx
        · exact h2 hr y hy
      · intro j hj
        obtain ⟨i, y, e, g1, g2, g3⟩ := h3 j hj
        refine ⟨i + 1, y, by omega, by simpa using g1, g2, ?_⟩
        intro i' z hi hz
        cases i' with
        | zero =>
          simp only [List.getElem?_cons_zero, Option.some.injEq] at hz
          rw [← hz]; exact hnx
        | succ i' => exact g3 i' z (by omega) (by simpa using hz)

/-- The loop over the polygons. -/
theorem exterior_spec {m0 : Mesh P} {Q : Nat → Nat → Prop} : ∀ (l : List Nat) (M : List (Nat × Nat)), l.Nodup → (∀ i ∈ l, i ∉ M.map Prod.fst) →
    (∀ i ∈ l, ∃ p, o.polygons[i]? = some p ∧ ∀ x ∈ p, ∃ b, Trace.leadsIn ps m0 smV smF base reg falls path holes x = some b ∧ (b = true ↔ Q i x)) →
    ∃ N, l.foldlM (fun M i => if M.any (fun e => e.1 == i) then some M
        else (o.polygons[i]?).bind (fun p => (firstIn ps m0 smV smF base reg falls path holes 0 p).map (fun r => r.elim M (fun k => M ++ [(i, k)])))) M = some (M ++ N) ∧
      (N.map Prod.fst).Nodup ∧ (∀ i ∈ N.map Prod.fst, i ∈ l) ∧ (∀ i ∈ l, i ∉ N.map Prod.fst → ∀ p, o.polygons[i]? = some p → ∀ x ∈ p, ¬ Q i x) ∧
      ∀ e ∈ N, ∃ p x, o.polygons[e.1]? = some p ∧ p[e.2]? = some x ∧ Q e.1 x ∧ ∀ k y, k < e.2 → p[k]? = some y → ¬ Q e.1 y := by
  intro l
  induction l with
  | nil => intro M _ _ _; exact ⟨[], by simp, by simp, by simp, by simp, by simp⟩
  | cons i l ih =>
    intro M nd hM h
    obtain ⟨p, hp, hb⟩ := h i List.mem_cons_self
    obtain ⟨r, h1, h2, h3⟩ := firstIn_spec p 0 hb
    have hno : ¬ M.any (fun e => e.1 == i) = true := by
      intro ha
      obtain ⟨e, he, hi⟩ := List.any_eq_true.1 ha
      rw [beq_iff_eq] at hi
      exact hM i List.mem_cons_self (List.mem_map.2 ⟨e, he, hi⟩)
    have hni := (List.nodup_cons.1 nd).1
    rw [List.foldlM_cons, if_neg hno, hp, Option.bind_some, h1]
    cases r with
    | none =>
      obtain ⟨N, e, n1, n2, n3, n4⟩ := ih M (List.nodup_cons.1 nd).2 (fun j hj => hM j (List.mem_cons_of_mem _ hj)) (fun j hj => h j (List.mem_cons_of_mem _ hj))
      refine ⟨N, e, n1, fun j hj => List.mem_cons_of_mem _ (n2 j hj), ?_, n4⟩
      intro j hj hjn
      rcases List.mem_cons.1 hj with hj | hj
      · intro p' hp' x hx
        rw [hj] at hp' ⊢
        rw [hp] at hp'
        injection hp' with hp'
        exact h2 rfl x (hp' ▸ hx)
      · exact n3 j hj hjn
    | some k =>
      obtain ⟨k', x, e0, g1, g2, g3⟩ := h3 k rfl
      obtain rfl : k = k' := by omega
      obtain ⟨N, e, n1, n2, n3, n4⟩ := ih (M ++ [(i, k)]) (List.nodup_cons.1 nd).2 (fun j hj => by
        rw [List.map_append, List.mem_append, not_or]
        refine ⟨hM j (List.mem_cons_of_mem _ hj), ?_⟩
        simp only [List.map_cons, List.map_nil, List.mem_singleton]
        intro e; exact hni (e ▸ hj)) (fun j hj => h j (List.mem_cons_of_mem _ hj))
      refine ⟨(i, k) :: N, ?_, ?_, ?_, ?_, ?_⟩
      · show (l.foldlM _ (M ++ [(i, k)])) = _
        rw [e, List.append_assoc]; rfl
      · rw [List.map_cons, List.nodup_cons]
        exact ⟨fun hi => hni (n2 _ hi), n1⟩
      · intro j hj
        rw [List.map_cons] at hj
        rcases List.mem_cons.1 hj with hj | hj
        · rw [hj]; exact List.mem_cons_self
        · exact List.mem_cons_of_mem _ (n2 j hj)
      · intro j hj hjn
        rw [List.map_cons, List.mem_cons, not_or] at hjn
        rcases List.mem_cons.1 hj with hj | hj
        · exact absurd hj hjn.1
        · exact n3 j hj hjn.2
      · intro e he
        rcases List.mem_cons.1 he with he | he
        · rw [he]; exact ⟨p, x, hp, g1, g2, g3⟩
        · exact n4 e he

/-- The polygons of the cut mesh that are known to lie outside. -/
theorem CutFacts.exterior (C : CutFacts d ps smV smF base pts sort edges c st pieces reg n o T poly)
    (hfalls : ∀ h g x, Arrives ps st.m0 base pts sort pieces reg h g x → ∃ b, falls g (src st.m0 x) (st.m0.target x) = some b ∧ (b = true ↔ down h g))
    (hpath : ∀ v, base ≤ v → v < st.m0.nV → (∃ e ∈ c.cutEdges, (endsOf c.m0 e).1 = v ∨ (endsOf c.m0 e).2 = v) → ∃ q, path v = some q ∧ holes.contains q = true) (hne : holes ≠ []) :
    ∃ M, Trace.exterior ps st.m0 smV smF base reg falls path holes o = some M ∧ ExteriorOf ps st.m0 smF base pts sort pieces reg down o M := by
  have L := C.F.L
  have hin : ∀ i ∈ o.cm, o.smCount ≤ i ∧ ∃ p, o.polygons[i]? = some p := by
    intro i hi
    obtain ⟨f, f1, f2, -⟩ := (L.cm.2 i).1 hi
    have h1 := L.first List.pairwise_lt_range f1
    have hlen : i < o.polygons.length := by
      have h2 := L.faceOf i
      rw [f1] at h2
      have h3 := (List.getElem?_eq_some_iff.1 h2.symm).1
      have : o.polygons.length = (List.flatMap (fun f => (poly f).map (fun _ => f)) (List.range n)).length := by
        rw [L.polygons]; simp [List.length_flatMap]
      rw [this]; exact h3
    exact ⟨by omega, _, List.getElem?_eq_getElem hlen⟩
  obtain ⟨N, e, n1, n2, n3, n4⟩ := exterior_spec (ps := ps) (m0 := st.m0) (smV := smV) (smF := smF) (base := base) (reg := reg) (falls := falls) (path := path) (holes := holes) (o := o)
    (Q := EntersAt ps st.m0 smF base pts sort pieces reg down o) o.cm [] (L.cm.1.imp (fun h => Nat.ne_of_lt h)) (by simp) (fun i hi => by
      obtain ⟨h1, p, hp⟩ := hin i hi
      exact ⟨p, hp, fun x hx => C.leadsIn hfalls hpath h1 hp hx⟩)
  refine ⟨N, ?_, n1, ?_, n4⟩
  · unfold Trace.exterior
    rw [if_neg (by simpa using hne)]
    simpa using e
  · intro i
    constructor
    · intro hi
      obtain ⟨y, hy, rfl⟩ := List.mem_map.1 hi
      obtain ⟨p, x, -, -, h, -⟩ := n4 y hy
      exact ⟨x, h⟩
    · rintro ⟨x, E⟩
      by_contra hn
      obtain ⟨f, p, h, g, e1, e2, e3, e4, A, -⟩ := id E
      refine n3 i ?_ hn p e3 x e4 E
      refine (L.cm.2 i).2 ⟨f, e1, e2, ?_⟩
      obtain ⟨f', f1, f2, f3, f4⟩ := C.face (by have := L.first List.pairwise_lt_range e1; omega) e3
      rw [e1] at f1
      obtain rfl := Option.some.inj f1
      have G := C.F.G
      have hlf := (C.F.live f).1 f3
      have hxl : x ∈ (poly f).flatten := List.mem_flatten.2 ⟨p, f4, e4⟩
      have hlh := ((reachable_wf G.ready.psOk).liveH_iff h).1 A.part.1
      have hpl := (G.pieceLive hlh _ A.part.2.2.1).2
      have hxo := ((C.F.uses f f3).boundary x (by omega)).1 hxl
      obtain ⟨h', hh, hxs⟩ := List.mem_flatMap.1 hxo
      obtain rfl := G.part_one A.part ((G.part_iff (G.live hlf hh).1).2 hxs)
      have hv : st.m0.target x ∈ pts (edgeOf h) := (G.points _ _).2 ⟨st.m0.target x - base, g, by have := A.point.1; omega, A.point.2⟩
      obtain ⟨a, a1, -⟩ := C.F.X.ends (edgeOf h) f _ (G.live hlf hh).2.1 (G.onEdge hlf hh) hv
      intro he
      rw [he] at a1; cases a1

/-- A polygon that enters the source mesh is at the cut. -/
theorem CutFacts.enters (C : CutFacts d ps smV smF base pts sort edges c st pieces reg n o T poly) {i x : Nat} (E : EntersAt ps st.m0 smF base pts sort pieces reg down o i x) :
    AtCut o.polygons o.smCount (2 * c.m0.nE) i := by
  obtain ⟨f, p, h, g, e1, e2, e3, e4, A, -⟩ := E
  have L := C.F.L
  have hi : o.smCount ≤ i := (C.index e1).2 e2
  obtain ⟨f', f1, f2, f3, f4⟩ := C.face hi e3
  rw [e1] at f1
  obtain rfl := Option.some.inj f1
  have G := C.F.G
  have hlf := (C.F.live f).1 f3
  have hxl : x ∈ (poly f).flatten := List.mem_flatten.2 ⟨p, f4, e4⟩
  have hlh := ((reachable_wf G.ready.psOk).liveH_iff h).1 A.part.1
  have hpl := (G.pieceLive hlh _ A.part.2.2.1).2
  have hxo := ((C.F.uses f f3).boundary x (by omega)).1 hxl
  obtain ⟨h', hh, hxs⟩ := List.mem_flatMap.1 hxo
  obtain rfl := G.part_one A.part ((G.part_iff (G.live hlf hh).1).2 hxs)
  have hv : st.m0.target x ∈ pts (edgeOf h) := (G.points _ _).2 ⟨st.m0.target x - base, g, by have := A.point.1; omega, A.point.2⟩
  obtain ⟨y, y1, y2, -⟩ := (C.F.cross f f3).ahead p f4 x e4 h hh hxs hv
  exact ⟨y, ⟨hi, p, e3, y1.mem.2⟩, cut_lt.2 (G.cutLt f _ y2)⟩

/-- Every patch has a colour. -/
theorem colourOf_some {patches : List (List Nat)} {out : Nat → Prop} {red blue : List Nat} (CO : ColoursOf patches out red blue) {k : Nat} (hk : k < patches.length) :
    ∃ a, colourOf red blue k = some a ∧ (a = true ↔ k ∈ red) := by
  unfold colourOf
  by_cases h : k ∈ red
  · exact ⟨true, by simp [h], by simp [h]⟩
  · have : k ∈ blue := by
      have := (CO.all k).2 hk
      rw [List.mem_append] at this
      exact this.resolve_left h
    exact ⟨false, by simp [h, this], by simp [h]⟩

/-- The meaning of the colours. -/
theorem meaning_spec {patches : List (List Nat)} {out : Nat → Prop} {red blue : List Nat} (CO : ColoursOf patches out red blue) {table ext : List (Nat × Nat)}
    (hex : ∀ e ∈ ext, ∃ (k : Nat) (l : List Nat), patchOf table e.1 = some k ∧ patches[k]? = some l ∧ e.1 ∈ l) (hfull : ∀ l ∈ patches, l ≠ []) (hpos : 0 < patches.length) :
    ∃ f, meaning table red blue ext = some f ∧
      (((∃ e ∈ ext, True) ∧ (∀ e ∈ ext, out e.1)) ∨ (ext = [] ∧ ∀ l i, patches[0]? = some l → i ∈ l → ¬ out i) →
        ∀ (k : Nat) (l : List Nat) i, patches[k]? = some l → i ∈ l → ∃ a, colourOf red blue k = some a ∧ (f a = .outside ↔ out i)) := by
  cases ext with
  | nil =>
    obtain ⟨a, h1, h2⟩ := colourOf_some CO hpos
    refine ⟨fun b => if b = a then .inside else .outside, ?_, ?_⟩
    · show (colourOf red blue 0).map _ = _
      rw [h1]; rfl
    · intro h k l i hl hi
      obtain ⟨b, b1, b2⟩ := colourOf_some CO (List.getElem?_eq_some_iff.1 hl).1
      refine ⟨b, b1, ?_⟩
      rcases h with ⟨⟨e, he, -⟩, -⟩ | ⟨-, h⟩
      · cases he
      obtain ⟨j, hj⟩ := List.exists_mem_of_ne_nil _ (hfull _ (List.getElem_mem hpos))
      have h0 := List.getElem?_eq_getElem hpos
      have hout := h _ j h0 hj
      have hs := CO.same k 0 l _ i j hl h0 hi hj
      rw [← b2, ← h2] at hs
      have hab : b = a ↔ (b = true ↔ a = true) := by cases a <;> cases b <;> simp
      dsimp only
      by_cases hc : b = a
      · rw [if_pos hc]
        have := hs.1 (hab.1 hc)
        constructor
        · intro h'; cases h'
        · intro h'; exact absurd (this.1 h') hout
      · rw [if_neg hc]
        constructor
        · intro _
          by_contra hn
          exact hc (hab.2 (hs.2 ⟨fun h' => absurd h' hn, fun h' => absurd h' hout⟩))
        · intro _; rfl
  | cons e ext =>
    obtain ⟨k0, l0, p1, p2, p3⟩ := hex e List.mem_cons_self
    obtain ⟨a, h1, h2⟩ := colourOf_some CO (List.getElem?_eq_some_iff.1 p2).1
    refine ⟨fun b => if b = a then .outside else .inside, ?_, ?_⟩
    · show (patchOf table e.1).bind _ = _
      rw [p1, Option.bind_some, h1]; rfl
    · intro h k l i hl hi
      obtain ⟨b, b1, b2⟩ := colourOf_some CO (List.getElem?_eq_some_iff.1 hl).1
      refine ⟨b, b1, ?_⟩
      rcases h with ⟨-, h⟩ | ⟨h, -⟩
      swap
      · cases h
      have hout := h e List.mem_cons_self
      have hs := CO.same k k0 l l0 i e.1 hl p2 hi p3
      rw [← b2, ← h2] at hs
      have hab : b = a ↔ (b = true ↔ a = true) := by cases a <;> cases b <;> simp
      dsimp only
      by_cases hc : b = a
      · rw [if_pos hc]
        have := hs.1 (hab.1 hc)
        exact ⟨fun _ => this.2 hout, fun _ => rfl⟩
      · rw [if_neg hc]
        constructor
        · intro h'; cases h'
        · intro h'
          exact absurd (hab.2 (hs.2 ⟨fun _ => hout, fun _ => h'⟩)) hc

end Mcut.Patches
