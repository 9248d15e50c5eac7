import Verif.Lemmas.C71Laid

/-! Lemmas for C71: the search for a first halfedge of the boundary. -/
namespace Mcut.Trace
open Mcut.Hmesh Mcut.Registry Mcut.CutEdges Mcut.Boundary
variable {P : Type} {d : P} {ps : Mesh P} {base : Nat} {pts : Nat → List Nat} {sort : Nat → Nat → List Nat → List Nat} {edges : List Nat} {c : CutEdges.St P} {st : Boundary.St P}
  {pieces : Nat → List Nat} {reg : List (Nat × Nat)}

/-- The original corners around a face. -/
theorem Given.ring_ps (G : Given d ps base pts sort edges c st pieces reg) {f : Nat} (hf : LiveF ps f) : Ringed ps (ps.fh f) ∧ ((ps.fh f).map (src ps)).Nodup := by
  obtain ⟨h0, l, hfh, hch, hlast⟩ := G.sourceTarget hf
  have e1 : ∀ (F : Nat → Nat) (l : List Nat), l.flatMap (fun h => [F h]) = l.map F := by
    intro F l; induction l with
    | nil => rfl
    | cons a l ih => simp [ih]
  have key := flat_ring (s := src ps) (t := ps.target) (A := fun h => [src ps h]) (B := fun h => [ps.target h]) (q := fun _ => []) l h0 (fun h _ => ⟨rfl, rfl⟩) hch
  rw [hlast, e1, e1, List.map_cons (f := src ps), List.cons_append] at key
  have hR : Ringed ps (ps.fh f) := by
    unfold Ringed
    rw [hfh, (List.cons.inj key).2]
    simp [List.rotate_cons_succ]
  refine ⟨hR, ?_⟩
  have hc := G.corners f hf
  unfold Mesh.verticesAroundFace at hc
  have : ((ps.fh f).map ps.target).Nodup := hc
  rw [hR, List.nodup_rotate] at this
  exact this

theorem Given.no_back (G : Given d ps base pts sort edges c st pieces reg) {f g g' : Nat} (hf : LiveF ps f) (hg : g ∈ ps.fh f) (hg' : g' ∈ ps.fh f) (h : src ps g' = ps.target g) :
    ps.target g' ≠ src ps g := by
  obtain ⟨h1, h2⟩ := G.ring_ps hf
  exact h1.noDouble h2 ((C29_consistent G.ready.psOk).face_list f hf).1 hg hg' h

theorem Given.sideOf_eq (G : Given d ps base pts sort edges c st pieces reg) {f g : Nat} (hf : LiveF ps f) (hg : g ∈ ps.fh f) : sideOf ps (edgeOf g) f = g := by
  obtain ⟨hl, -, hfg⟩ := G.live hf hg
  have C := C29_consistent G.ready.psOk
  unfold sideOf
  rcases half_of (rfl : edgeOf g = edgeOf g) with h | h
  · rw [← h, if_pos hfg]
  · have ho : opposite (halfedgeOf (edgeOf g) 0) = g := by rw [h]; unfold opposite halfedgeOf edgeOf; rw [if_pos (by omega)]; omega
    rw [if_neg, ho]
    intro hz
    have hlz : LiveH ps (halfedgeOf (edgeOf g) 0) := live_half G.ready.psOk (G.live hf hg).2.1 0 (by omega)
    have := G.edge_inj hf (C.chain _ f hlz hz).2.1 hg (by unfold edgeOf halfedgeOf; omega)
    rw [this] at ho
    unfold opposite at ho; split at ho <;> omega

/-- A halfedge of a boundary edge of the face belongs to the boundary, or its opposite does. -/
theorem Given.cases (G : Given d ps base pts sort edges c st pieces reg) {f h : Nat} (hf : LiveF ps f) (hh : edgeOf h ∈ (outline ps st.m0 pts sort pieces f).map edgeOf) :
    ∃ g ∈ ps.fh f, ∃ y ∈ side ps st.m0 pts sort pieces g, LiveH st.m0 y ∧ y ∈ outline ps st.m0 pts sort pieces f ∧ (h = y ∨ (h = opposite y ∧ src st.m0 h = st.m0.target y ∧ st.m0.target h = src st.m0 y)) := by
  obtain ⟨y, hy, he⟩ := List.mem_map.1 hh
  obtain ⟨g, hg, hyg⟩ := List.mem_flatMap.1 hy
  have hl := (G.on_side hf hg hyg).1
  refine ⟨g, hg, y, hyg, hl, hy, ?_⟩
  by_cases hey : h = y
  · exact .inl hey
  · right
    have : h = opposite y := by unfold edgeOf at he; unfold opposite; split <;> omega
    subst this
    obtain ⟨s1, -, s3, -⟩ := src_of G.divided.valid hl
    exact ⟨rfl, s3, s1.symm⟩

theorem Given.reg_of (G : Given d ps base pts sort edges c st pieces reg) {e v : Nat} (hv : v ∈ pts e) : ∃ x, reg[v - base]? = some x ∧ x.1 = e := by
  have := (G.pts_base hv).2
  cases h : reg[v - base]? with
  | none => rw [h] at this; simp at this
  | some x => rw [h] at this; exact ⟨x, rfl, by simpa using this⟩

/-- The walk along the pieces of an edge. -/
theorem follow_eq {m : Mesh P} {d : P} (hr : Reachable d m) : ∀ (es vs : List Nat) (v last : Nat), Leads m (v :: vs) es → (∀ e ∈ es, LiveE m e) → m.target last = v →
    follow m last es = List.zipWith (out m) (v :: vs) es := by
  intro es
  induction es with
  | nil => intro vs v last _ _ _; simp [follow]
  | cons e es ih =>
    intro vs v last L hl ht
    match vs, L with
    | [], L => have := L.1; simp at this
    | w :: vs, L =>
      obtain ⟨hj, L'⟩ := leads_cons L
      obtain ⟨h1, h2, -⟩ := out_spec hr (hl e (by simp)) hj
      unfold follow
      rw [List.zipWith_cons_cons]
      have : (if src m (halfedgeOf e 0) = m.target last then halfedgeOf e 0 else halfedgeOf e 1) = out m v e := by unfold out; rw [ht]
      simp only [this]
      rw [ih vs w _ L' (fun x hx => hl x (List.mem_cons_of_mem _ hx)) h2]

theorem chainFrom_eq {m : Mesh P} {d : P} (hr : Reachable d m) {base : Nat} {es vs : List Nat} {v w : Nat} (L : Leads m (v :: w :: vs) es) (hl : ∀ e ∈ es, LiveE m e) (hv : v < base) (hw : base ≤ w) :
    chainFrom m base es = List.zipWith (out m) (v :: w :: vs) es := by
  match es, L with
  | [], L => have := L.1; simp at this
  | e :: es, L =>
    obtain ⟨hj, L'⟩ := leads_cons L
    obtain ⟨h1, h2, h3, h4, hne, h6⟩ := out_spec hr (hl e (by simp)) hj
    unfold chainFrom
    have : (if base ≤ src m (halfedgeOf e 0) then halfedgeOf e 1 else halfedgeOf e 0) = out m v e := by
      unfold out at h1 ⊢
      by_cases hz : src m (halfedgeOf e 0) = v
      · rw [if_pos hz, if_neg (by rw [hz]; omega)]
      · rw [if_neg hz]
        have : src m (halfedgeOf e 0) = w := by
          have o1 : opposite (halfedgeOf e 1) = halfedgeOf e 0 := by unfold opposite halfedgeOf; rw [if_neg (by omega)]; omega
          unfold out at h2; rw [if_neg hz] at h2
          obtain ⟨-, -, b3, -⟩ := src_of hr (live_half hr (hl e (by simp)) 1 (by omega))
          rw [← o1, b3, h2]
        rw [if_pos (by rw [this]; exact hw)]
    simp only [this]
    rw [List.zipWith_cons_cons, follow_eq hr es vs w _ L' (fun x hx => hl x (List.mem_cons_of_mem _ hx)) h2]

/-- Walking the other way round. -/
theorem path_reverse {m : Mesh P} {d : P} (hr : Reachable d m) {es vs : List Nat} (L : Leads m vs es) (hl : ∀ e ∈ es, LiveE m e) :
    ∀ x ∈ List.zipWith (out m) vs es, opposite x ∈ List.zipWith (out m) vs.reverse es.reverse := by
  intro x hx
  obtain ⟨i, hi⟩ := List.mem_iff_getElem?.1 hx
  rw [List.getElem?_zipWith_eq_some] at hi
  obtain ⟨v, e, hv, he, rfl⟩ := hi
  have hie : i < es.length := (List.getElem?_eq_some_iff.1 he).1
  have hlen := L.1
  obtain ⟨w, hw⟩ : ∃ w, vs[i + 1]? = some w := ⟨_, List.getElem?_eq_getElem (by omega)⟩
  obtain ⟨-, -, -, -, -, h6⟩ := out_spec hr (hl e (List.mem_of_getElem? he)) (L.2 i e v w he hv hw)
  rw [← h6]
  refine List.mem_iff_getElem?.2 ⟨es.length - 1 - i, ?_⟩
  rw [List.getElem?_zipWith_eq_some]
  refine ⟨w, e, ?_, ?_, rfl⟩
  · rw [List.getElem?_reverse (by omega), ← hw]; congr 1; omega
  · rw [List.getElem?_reverse (by omega), ← he]; congr 1; omega

/-- A halfedge between two points of an edge. -/
theorem Given.inner (G : Given d ps base pts sort edges c st pieces reg) {f g h r : Nat} (hf : LiveF ps f) (hg : g ∈ ps.fh f) (h2 : 1 < (pts (edgeOf g)).length)
    (hr : lookInner ps st.m0 base st.chains f (edgeOf g) h = .take r) : r ∈ side ps st.m0 pts sort pieces g := by
  have hv := G.divided.valid
  obtain ⟨hl, hle, -⟩ := G.live hf hg
  have hmem := (G.all.2 _).2 hle
  unfold lookInner at hr
  rw [G.sideOf_eq hf hg] at hr
  simp only at hr
  rw [G.divided.chains _ hmem h2] at hr
  have hlive : ∀ e ∈ pieces (edgeOf g), LiveE st.m0 e := fun e he => (G.pieceLive hle e he).1
  have L := G.divided.leads _ hmem
  obtain ⟨q, q1, q2⟩ := G.along hle
  have hqlen : 1 < q.length := by rw [q1.length_eq]; exact h2
  match q, hqlen with
  | w :: q, _ =>
    have hw : base ≤ w := ((G.ready.points _).2 w (q1.subset (by simp))).1
    have hends : ps.edgeVertex (edgeOf g) 0 < base := by
      have hls := live_half G.ready.psOk hle 0 (by omega)
      exact G.ready.old _ ((C29_consistent G.ready.psOk).opp _ hls).2.2.2.2.2.2.1
    have L2 := L
    rw [q2, List.cons_append] at L2
    have hc := chainFrom_eq hv L2 hlive hends hw
    rw [← List.cons_append, ← q2] at hc
    rw [hc] at hr
    have hs : ∀ x, x ∈ List.zipWith (out st.m0) (Boundary.along ps pts sort (edgeOf g)) (pieces (edgeOf g)) → g % 2 = 1 → x ∈ side ps st.m0 pts sort pieces g := by
      intro x hx ho
      unfold side pathOf piecesOf
      rw [if_pos ho, if_pos ho]; exact hx
    have hs' : ∀ x, x ∈ List.zipWith (out st.m0) (Boundary.along ps pts sort (edgeOf g)) (pieces (edgeOf g)) → ¬ g % 2 = 1 → opposite x ∈ side ps st.m0 pts sort pieces g := by
      intro x hx ho
      unfold side pathOf piecesOf
      rw [if_neg ho, if_neg ho]; exact path_reverse hv L hlive x hx
    obtain ⟨k1, k2, -, -⟩ := path_spec hv _ _ L hlive
    generalize hz : List.zipWith (out st.m0) (Boundary.along ps pts sort (edgeOf g)) (pieces (edgeOf g)) = z at *
    match z with
    | [] => simp at hr
    | first :: z =>
      simp only at hr
      have hfirst : src st.m0 first = ps.edgeVertex (edgeOf g) 0 := by
        have := congrArg List.head? k2
        rw [q2, ← List.cons_append, List.dropLast_concat] at this
        simpa using this
      obtain ⟨s1, s2, -⟩ := src_of G.ready.psOk hl
      by_cases ho : g % 2 = 1
      · have h1 : ps.edgeVertex (edgeOf g) 0 = src ps g := by rw [s1]; unfold Mesh.edgeVertex opposite edgeOf; rw [if_neg (by omega)]; congr 1; omega
        rw [if_pos (hfirst.trans h1)] at hr
        split at hr
        · rename_i x hx
          injection hr with hr
          exact hr ▸ hs x (List.mem_of_find?_eq_some hx) ho
        · cases hr
      · have h1 : ps.edgeVertex (edgeOf g) 0 = ps.target g := by unfold Mesh.edgeVertex edgeOf; congr 1; omega
        rw [if_neg (by rw [hfirst, h1]; exact fun h => s2 h.symm)] at hr
        split at hr
        · rename_i x hx
          injection hr with hr
          obtain ⟨y, hy, rfl⟩ := List.mem_map.1 (List.mem_of_find?_eq_some hx)
          exact hr ▸ hs' y hy ho
        · cases hr

/-- A halfedge that is taken belongs to the boundary of the face, in its direction. -/
theorem Given.look_take (G : Given d ps base pts sort edges c st pieces reg) {f h r : Nat} (hf : LiveF ps f) (hh : edgeOf h ∈ (outline ps st.m0 pts sort pieces f).map edgeOf)
    (hr : look ps st base reg f h = .take r) : r ∈ outline ps st.m0 pts sort pieces f := by
  obtain ⟨g, hg, y, hy, hly, hyo, hc⟩ := G.cases hf hh
  obtain ⟨o1, o2⟩ := G.old hf hg
  obtain ⟨-, -, hs, ht⟩ := G.on_side hf hg hy
  obtain ⟨hlg, -, hfg⟩ := G.live hf hg
  have C := C29_consistent G.ready.psOk
  have hpts : ∀ v, v ∈ pts (edgeOf g) → base ≤ v := fun v hv => (G.pts_base hv).1
  unfold look at hr
  simp only at hr
  by_cases hsb : src st.m0 h < base
  · rw [if_pos hsb] at hr
    by_cases htb : st.m0.target h < base
    · rw [if_pos htb] at hr
      cases hz : ps.halfedge (src st.m0 h) (st.m0.target h) false with
      | none => rw [hz] at hr; cases hr
      | some g' =>
        rw [hz] at hr
        simp only at hr
        by_cases hfg' : ps.face g' = some f
        · rw [if_pos hfg'] at hr
          injection hr with hr
          subst hr
          rcases hc with rfl | ⟨rfl, e1, e2⟩
          · exact hyo
          · exfalso
            rw [e1] at hsb hz
            rw [e2] at htb hz
            have hs' : src st.m0 y = src ps g := by rcases hs with h | h; exact h; have := hpts _ h; omega
            have ht' : st.m0.target y = ps.target g := by rcases ht with h | h; exact h; have := hpts _ h; omega
            rw [hs', ht', halfedge_nonstrict, Option.bind_eq_some_iff] at hz
            obtain ⟨k, hk, hk'⟩ := hz
            have : k = g' := by split at hk'; exact Option.some.inj hk'; cases hk'
            subst this
            have hne : ps.target g ≠ src ps g := fun h => (src_of G.ready.psOk hlg).2.1 h.symm
            obtain ⟨m1, m2, m3⟩ := halfedge_some (reachable_wf G.ready.psOk) _ _ hne _ hk
            refine G.no_back hf hg (C.chain _ f m1 hfg').2.1 ?_ m3
            rw [(src_of G.ready.psOk m1).1]; exact m2
        · rw [if_neg hfg'] at hr; cases hr
    · rw [if_neg htb] at hr
      have htp : st.m0.target h ∈ pts (edgeOf g) := by
        rcases hc with rfl | ⟨rfl, e1, e2⟩
        · rcases ht with h | h
          · rw [h] at htb; omega
          · exact h
        · rw [e2] at htb ⊢
          rcases hs with h | h
          · rw [h] at htb; omega
          · exact h
      obtain ⟨x, hx, hxe⟩ := G.reg_of htp
      rw [hx] at hr
      simp only [hxe, G.sideOf_eq hf hg] at hr
      split at hr
      · rename_i hsg
        injection hr with hr
        subst hr
        rcases hc with rfl | ⟨rfl, e1, e2⟩
        · exact hyo
        · exfalso
          rw [e1] at hsb hsg
          rcases ht with h | h
          · rw [h] at hsg; exact (src_of G.ready.psOk hlg).2.1 hsg.symm
          · have := hpts _ h; omega
      · cases hr
  · rw [if_neg hsb] at hr
    by_cases htb : st.m0.target h < base
    · rw [if_pos htb] at hr; cases hr
    · rw [if_neg htb] at hr
      obtain ⟨p1, p2⟩ : src st.m0 h ∈ pts (edgeOf g) ∧ st.m0.target h ∈ pts (edgeOf g) := by
        rcases hc with rfl | ⟨rfl, e1, e2⟩
        · refine ⟨?_, ?_⟩
          · rcases hs with h | h
            · rw [h] at hsb; omega
            · exact h
          · rcases ht with h | h
            · rw [h] at htb; omega
            · exact h
        · rw [e1] at hsb ⊢
          rw [e2] at htb ⊢
          refine ⟨?_, ?_⟩
          · rcases ht with h | h
            · rw [h] at hsb; omega
            · exact h
          · rcases hs with h | h
            · rw [h] at htb; omega
            · exact h
      obtain ⟨x, hx, hxe⟩ := G.reg_of p1
      obtain ⟨z, hz, hze⟩ := G.reg_of p2
      rw [hx, hz] at hr
      simp only [hxe, hze, if_true] at hr
      have hne : src st.m0 h ≠ st.m0.target h := by
        have hlh : LiveH st.m0 h := by
          rcases hc with rfl | ⟨rfl, -⟩
          · exact hly
          · exact (src_of G.divided.valid hly).2.2.2.2
        exact (src_of G.divided.valid hlh).2.1
      have h2 : 1 < (pts (edgeOf g)).length := by
        by_contra hlt
        match hq : pts (edgeOf g), hlt with
        | [], _ => rw [hq] at p1; simp at p1
        | [a], _ => rw [hq] at p1 p2; simp at p1 p2; exact hne (p1.trans p2.symm)
        | a :: b :: l, hlt => simp at hlt
      exact List.mem_flatMap.2 ⟨g, hg, G.inner hf hg h2 hr⟩

/-- What the search finds belongs to the boundary of the face, in its direction. -/
theorem Given.search_take (G : Given d ps base pts sort edges c st pieces reg) {f r : Nat} (hf : LiveF ps f) : ∀ (es : List Nat),
    (∀ e ∈ es, e ∈ (outline ps st.m0 pts sort pieces f).map edgeOf) → search ps st base reg f es = .take r → r ∈ outline ps st.m0 pts sort pieces f := by
  intro es
  induction es with
  | nil => intro _ h; cases h
  | cons e es ih =>
    intro hes h
    have e0 : edgeOf (halfedgeOf e 0) = e := by unfold edgeOf halfedgeOf; omega
    have e1 : edgeOf (halfedgeOf e 1) = e := by unfold edgeOf halfedgeOf; omega
    have hin := hes e (by simp)
    unfold search at h
    cases h0 : look ps st base reg f (halfedgeOf e 0) with
    | take x => rw [h0] at h; simp only at h; injection h with h; subst h; exact G.look_take hf (by rw [e0]; exact hin) h0
    | bad => rw [h0] at h; cases h
    | no =>
      rw [h0] at h
      simp only at h
      cases h1 : look ps st base reg f (halfedgeOf e 1) with
      | take x => rw [h1] at h; simp only at h; injection h with h; subst h; exact G.look_take hf (by rw [e1]; exact hin) h1
      | bad => rw [h1] at h; cases h
      | no => rw [h1] at h; exact ih (fun x hx => hes x (by simp [hx])) h

/-- With at most one point per edge, a halfedge that is looked at is taken itself and begins in an original vertex; nothing undefined happens. -/
theorem Given.look_few (G : Given d ps base pts sort edges c st pieces reg) {f h : Nat} (hf : LiveF ps f) (few : ∀ g ∈ ps.fh f, (pts (edgeOf g)).length ≤ 1)
    (hh : edgeOf h ∈ (outline ps st.m0 pts sort pieces f).map edgeOf) :
    look ps st base reg f h ≠ .bad ∧ (∀ r, look ps st base reg f h = .take r → src st.m0 r < base) := by
  obtain ⟨g, hg, y, hy, hly, hyo, hc⟩ := G.cases hf hh
  obtain ⟨o1, o2⟩ := G.old hf hg
  obtain ⟨-, -, hs, ht⟩ := G.on_side hf hg hy
  have hb : ¬ (base ≤ src st.m0 h ∧ base ≤ st.m0.target h) := by
    intro hb
    have hb' : base ≤ src st.m0 y ∧ base ≤ st.m0.target y := by
      rcases hc with rfl | ⟨rfl, e1, e2⟩
      · exact hb
      · rw [e1, e2] at hb; exact ⟨hb.2, hb.1⟩
    have p1 : src st.m0 y ∈ pts (edgeOf g) := by rcases hs with h | h; (have := hb'.1; omega); exact h
    have p2 : st.m0.target y ∈ pts (edgeOf g) := by rcases ht with h | h; (have := hb'.2; omega); exact h
    have hne := (src_of G.divided.valid hly).2.1
    have := few g hg
    match hq : pts (edgeOf g), this with
    | [], _ => rw [hq] at p1; simp at p1
    | [a], _ => rw [hq] at p1 p2; simp at p1 p2; exact hne (p1.trans p2.symm)
  unfold look
  simp only
  by_cases hsb : src st.m0 h < base
  · rw [if_pos hsb]
    by_cases htb : st.m0.target h < base
    · rw [if_pos htb]
      cases hz : ps.halfedge (src st.m0 h) (st.m0.target h) false with
      | none => simp
      | some g' =>
        simp only
        split
        · simp only [ne_eq, reduceCtorEq, not_false_eq_true, Look.take.injEq, true_and]
          rintro r rfl; exact hsb
        · simp
    · rw [if_neg htb]
      have htp : st.m0.target h ∈ pts (edgeOf g) := by
        rcases hc with rfl | ⟨rfl, e1, e2⟩
        · rcases ht with h | h
          · rw [h] at htb; omega
          · exact h
        · rw [e2] at htb ⊢
          rcases hs with h | h
          · rw [h] at htb; omega
          · exact h
      obtain ⟨x, hx, hxe⟩ := G.reg_of htp
      rw [hx]
      simp only
      split
      · simp only [ne_eq, reduceCtorEq, not_false_eq_true, Look.take.injEq, true_and]
        rintro r rfl; exact hsb
      · simp
  · rw [if_neg hsb, if_pos (by omega)]
    simp

/-- The first halfedge along an edge of the face is taken. -/
theorem Given.look_first (G : Given d ps base pts sort edges c st pieces reg) {f g y : Nat} (hf : LiveF ps f) (hg : g ∈ ps.fh f) (hy : y ∈ side ps st.m0 pts sort pieces g)
    (hsrc : src st.m0 y = src ps g) (one : pts (edgeOf g) = [] → SimpleEdges ps) : look ps st base reg f y = .take y := by
  obtain ⟨o1, o2⟩ := G.old hf hg
  obtain ⟨hly, hpy, hs, ht⟩ := G.on_side hf hg hy
  obtain ⟨hlg, hle, hfg⟩ := G.live hf hg
  unfold look
  simp only [hsrc, if_pos o1]
  by_cases htb : st.m0.target y < base
  · have ht' : st.m0.target y = ps.target g := by rcases ht with h | h; exact h; (have := (G.pts_base h).1; omega)
    have hnil : pts (edgeOf g) = [] := by
      -- the side has one halfedge only
      obtain ⟨q, q1, q2⟩ := G.path hlg
      have k2 := (G.sides hlg).2.1
      have k3 := (G.sides hlg).2.2.1
      obtain ⟨i, hi⟩ := List.mem_iff_getElem?.1 hy
      have h2 : ((pathOf ps pts sort g).dropLast)[i]? = some (src ps g) := by rw [← k2, List.getElem?_map, hi, ← hsrc]; rfl
      have h3 : ((pathOf ps pts sort g).tail)[i]? = some (ps.target g) := by rw [← k3, List.getElem?_map, hi, ← ht']; rfl
      rw [q2, ← List.cons_append, List.dropLast_concat] at h2
      rw [q2, List.tail_cons] at h3
      have hb : ∀ v ∈ q, base ≤ v := fun v hv => (G.pts_base (q1.subset hv)).1
      have hq : q = [] := by
        cases i with
        | zero =>
          cases q with
          | nil => rfl
          | cons a q => simp at h3; have := hb a (by simp); omega
        | succ i =>
          simp at h2
          have := hb _ (List.mem_of_getElem? h2)
          omega
      subst hq
      exact List.nil_perm.1 q1
    rw [if_pos htb, ht']
    have hne : src ps g ≠ ps.target g := (src_of G.ready.psOk hlg).2.1
    have W := reachable_wf G.ready.psOk
    obtain ⟨s1, -⟩ := src_of G.ready.psOk hlg
    cases hz : ps.halfedge (src ps g) (ps.target g) true with
    | none =>
      exfalso
      refine (halfedge_none W _ _ hne).1 hz g hlg ?_ rfl
      rw [s1]; exact ((C29_consistent G.ready.psOk).opp g hlg).2.2.2.2.2.1
    | some k =>
      obtain ⟨m1, m2, m3⟩ := halfedge_some W _ _ hne _ hz
      have hkg : k = g := by
        have hs' : src ps k = src ps g := by rw [(src_of G.ready.psOk m1).1]; exact m2
        have hj : ∀ x, LiveH ps x → src ps x = src ps g → ps.target x = ps.target g → Joins ps (edgeOf x) (src ps g) (ps.target g) := by
          intro x hx e1 e2
          rcases ends_of G.ready.psOk hx with ⟨a, b⟩ | ⟨a, b⟩
          · exact .inr ⟨a.trans e2, b.trans e1⟩
          · exact .inl ⟨a.trans e1, b.trans e2⟩
        have he := one hnil _ _ _ _ ((W.liveH_iff k).1 m1) hle (hj k m1 hs' m3) (hj g hlg rfl rfl)
        by_contra hne'
        have : k = opposite g := by unfold edgeOf at he; unfold opposite; split <;> omega
        subst this
        rw [(src_of G.ready.psOk hlg).2.2.1] at hs'
        exact hne hs'.symm
      subst hkg
      rw [halfedge_nonstrict, hz]
      simp [hfg]
  · have htp : st.m0.target y ∈ pts (edgeOf g) := by
      rcases ht with h | h
      · rw [h] at htb; omega
      · exact h
    obtain ⟨x, hx, hxe⟩ := G.reg_of htp
    rw [if_neg htb, hx]
    simp [hxe, G.sideOf_eq hf hg]

/-- The search comes to an end with a halfedge or undefined behaviour, but not without a result. -/
theorem Given.search_some (G : Given d ps base pts sort edges c st pieces reg) {f : Nat} (hf : LiveF ps f) (one : SimpleEdges ps) {es : List Nat}
    (hes : es.Perm ((outline ps st.m0 pts sort pieces f).map edgeOf)) : search ps st base reg f es ≠ .no := by
  have key : ∀ (es : List Nat) (y : Nat), edgeOf y ∈ es → look ps st base reg f y ≠ .no → search ps st base reg f es ≠ .no := by
    intro es
    induction es with
    | nil => intro y hy; cases hy
    | cons e es ih =>
      intro y hy hl hno
      unfold search at hno
      cases h0 : look ps st base reg f (halfedgeOf e 0) with
      | take x => rw [h0] at hno; cases hno
      | bad => rw [h0] at hno; cases hno
      | no =>
        rw [h0] at hno
        simp only at hno
        cases h1 : look ps st base reg f (halfedgeOf e 1) with
        | take x => rw [h1] at hno; cases hno
        | bad => rw [h1] at hno; cases hno
        | no =>
          rw [h1] at hno
          simp only at hno
          rcases List.mem_cons.1 hy with he | he
          · rcases half_of he with h | h
            · rw [h] at hl; exact hl h0
            · rw [h] at hl; exact hl h1
          · exact ih y he hl hno
  have K := (C29_consistent G.ready.psOk).face_list f hf
  obtain ⟨g, hg⟩ : ∃ g, g ∈ ps.fh f := by
    cases h : ps.fh f with
    | nil => rw [h] at K; simp at K
    | cons a l => exact ⟨a, by simp⟩
  have hlg := (G.live hf hg).1
  obtain ⟨q, q1, q2⟩ := G.path hlg
  have k2 := (G.sides hlg).2.1
  rw [q2, ← List.cons_append, List.dropLast_concat] at k2
  obtain ⟨y, hy, hys⟩ : ∃ y ∈ side ps st.m0 pts sort pieces g, src st.m0 y = src ps g := by
    have : src ps g ∈ (side ps st.m0 pts sort pieces g).map (src st.m0) := by rw [k2]; simp
    obtain ⟨y, hy, h⟩ := List.mem_map.1 this
    exact ⟨y, hy, h⟩
  have := G.look_first hf hg hy hys (fun _ => one)
  exact key es y (hes.symm.subset (List.mem_map.2 ⟨y, List.mem_flatMap.2 ⟨g, hg, hy⟩, rfl⟩)) (by rw [this]; simp)

/-- With at most one point per edge, the search always finds a halfedge, which begins in an original vertex. -/
theorem Given.search_few (G : Given d ps base pts sort edges c st pieces reg) {f : Nat} (hf : LiveF ps f) (one : SimpleEdges ps) (few : ∀ g ∈ ps.fh f, (pts (edgeOf g)).length ≤ 1)
    {es : List Nat} (hes : es.Perm ((outline ps st.m0 pts sort pieces f).map edgeOf)) : ∃ r, search ps st base reg f es = .take r ∧ src st.m0 r < base := by
  have key : ∀ (es : List Nat), (∀ e ∈ es, e ∈ (outline ps st.m0 pts sort pieces f).map edgeOf) → search ps st base reg f es ≠ .bad ∧
      ∀ r, search ps st base reg f es = .take r → src st.m0 r < base := by
    intro es
    induction es with
    | nil => intro _; exact ⟨(by intro h; cases h), (by intro r h; cases h)⟩
    | cons e es ih =>
      intro hin
      have e0 : edgeOf (halfedgeOf e 0) = e := by unfold edgeOf halfedgeOf; omega
      have e1 : edgeOf (halfedgeOf e 1) = e := by unfold edgeOf halfedgeOf; omega
      have hine := hin e (by simp)
      obtain ⟨a1, a2⟩ := G.look_few (h := halfedgeOf e 0) hf few (by rw [e0]; exact hine)
      obtain ⟨b1, b2⟩ := G.look_few (h := halfedgeOf e 1) hf few (by rw [e1]; exact hine)
      have ih := ih (fun x hx => hin x (by simp [hx]))
      unfold search
      cases h0 : look ps st base reg f (halfedgeOf e 0) with
      | take x => exact ⟨by simp, fun r h => by simp only [Look.take.injEq] at h; exact h ▸ a2 x h0⟩
      | bad => exact absurd h0 a1
      | no =>
        simp only
        cases h1 : look ps st base reg f (halfedgeOf e 1) with
        | take x => exact ⟨by simp, fun r h => by simp only [Look.take.injEq] at h; exact h ▸ b2 x h1⟩
        | bad => exact absurd h1 b1
        | no => exact ih
  obtain ⟨k1, k2⟩ := key es (fun e he => hes.subset he)
  cases h : search ps st base reg f es with
  | no => exact absurd h (G.search_some hf one hes)
  | bad => exact absurd h k1
  | take r => exact ⟨r, rfl, k2 r h⟩

end Mcut.Trace
