import Verif.Spec.C66
import Verif.Props.C63

/-! Lemmas for C66. -/
namespace Mcut.CutEdges
open Mcut.Hmesh Mcut.Registry
variable {P : Type}

theorem joins_swap {m : Mesh P} {e v w : Nat} : Joins m e v w ↔ Joins m e w v := by unfold Joins; exact Or.comm

theorem neighbours_fold (cond : Nat → Bool) (e : Nat) : ∀ (L : List Nat) (M : Nat → List Nat) (g : Nat),
    L.foldl (fun M g => if cond g then (if (M g).contains e then M else push M g e) else M) M g =
      if g ∈ L ∧ cond g = true ∧ e ∉ M g then M g ++ [e] else M g := by
  intro L
  induction L with
  | nil => intro M g; simp
  | cons a L ih =>
    intro M g
    rw [List.foldl_cons, ih]
    by_cases hc : cond a = true
    · rw [if_pos hc]
      by_cases he : e ∈ M a
      · have : (M a).contains e = true := by simpa using he
        rw [if_pos this]
        by_cases hg : g = a
        · subst hg
          rw [if_neg (by tauto), if_neg (by tauto)]
        · simp only [List.mem_cons, hg, false_or]
      · have : ¬ (M a).contains e = true := by simpa using he
        rw [if_neg this]
        by_cases hg : g = a
        · subst hg
          rw [push_same, if_neg (by simp), if_pos ⟨by simp, hc, he⟩]
        · rw [push_other _ _ hg]
          simp only [List.mem_cons, hg, false_or]
    · rw [if_neg hc]
      by_cases hg : g = a
      · subst hg
        rw [if_neg (by tauto), if_neg (by tauto)]
      · simp only [List.mem_cons, hg, false_or]

/-- Faces on both sides of a live edge are neighbours. -/
theorem mem_around {d : P} {ps : Mesh P} (hr : Reachable d ps) {e s g : Nat} (he : LiveE ps e) (h1 : OnEdge ps e s) (h2 : OnEdge ps e g) (hne : g ≠ s) :
    g ∈ ps.facesAroundFace s := by
  have W := reachable_wf hr
  have C := C29_consistent hr
  have hh : ∀ i, i < 2 → LiveH ps (halfedgeOf e i) := by
    intro i hi
    rw [W.liveH_iff]; unfold halfedgeOf; rwa [show (e * 2 + i) / 2 = e by omega]
  have key : ∀ h, LiveH ps h → ps.face h = some s → ps.face (opposite h) = some g → g ∈ ps.facesAroundFace s := by
    intro h hl hf ho
    unfold Mesh.facesAroundFace
    rw [List.mem_filterMap]
    refine ⟨h, (C.chain h s hl hf).2.1, ?_⟩
    unfold Mesh.faceAcross
    rw [(W.half h hl).1]
    exact ho
  have o0 : opposite (halfedgeOf e 0) = halfedgeOf e 1 := by unfold opposite halfedgeOf; split <;> omega
  have o1 : opposite (halfedgeOf e 1) = halfedgeOf e 0 := by rw [← o0, opposite_opposite]
  rcases h1 with h1 | h1 <;> rcases h2 with h2 | h2
  · rw [h1] at h2; exact absurd (Option.some.inj h2).symm hne
  · exact key _ (hh 0 (by omega)) h1 (by rw [o0]; exact h2)
  · exact key _ (hh 1 (by omega)) h1 (by rw [o1]; exact h2)
  · rw [h1] at h2; exact absurd (Option.some.inj h2).symm hne

/-- What is known of the tables. -/
structure Known (d : P) (ps : Mesh P) (smV smF base : Nat) (reg : List (Nat × Nat)) (cut : Nat × Nat → List Nat) : Prop where
  reach : Reachable d ps
  live : ∀ x ∈ reg, LiveE ps x.1
  sided : ∀ x ∈ reg, Sided ps smV smF x.1 x.2
  cut : ∀ s c, Lists base reg (fun e f => s < smF ∧ smF ≤ c ∧ ((OnEdge ps e s ∧ f = c) ∨ (OnEdge ps e c ∧ f = s))) (cut (s, c))

theorem Known.entry {d : P} {ps : Mesh P} {smV smF base : Nat} {reg : List (Nat × Nat)} {cut : Nat × Nat → List Nat} (K : Known d ps smV smF base reg cut)
    {k : Nat × Nat} {v : Nat} (hv : v ∈ cut k) : ∃ e f, base ≤ v ∧ reg[v - base]? = some (e, f) ∧ k.1 < smF ∧ smF ≤ k.2 ∧
      ((OnEdge ps e k.1 ∧ f = k.2) ∨ (OnEdge ps e k.2 ∧ f = k.1)) := by
  obtain ⟨i, e, f, rfl, hi, h⟩ := ((K.cut k.1 k.2).2 v).1 hv
  exact ⟨e, f, by omega, by rw [Nat.add_sub_cancel_left]; exact hi, h⟩

theorem Known.of_entry {d : P} {ps : Mesh P} {smV smF base : Nat} {reg : List (Nat × Nat)} {cut : Nat × Nat → List Nat} (K : Known d ps smV smF base reg cut)
    {k : Nat × Nat} {v e f : Nat} (hb : base ≤ v) (hr : reg[v - base]? = some (e, f)) (h1 : k.1 < smF) (h2 : smF ≤ k.2)
    (h : (OnEdge ps e k.1 ∧ f = k.2) ∨ (OnEdge ps e k.2 ∧ f = k.1)) : v ∈ cut k :=
  ((K.cut k.1 k.2).2 v).2 ⟨v - base, e, f, by omega, hr, h1, h2, h⟩

theorem registryFaces_mem (ps : Mesh P) (e f g : Nat) : (registryFaces ps (e, f)).contains (some g) = true ↔ f = g ∨ OnEdge ps e g := by
  unfold registryFaces OnEdge
  rw [List.contains_iff_mem]
  simp only [List.mem_cons, List.not_mem_nil, or_false, Option.some.injEq]
  constructor
  · rintro (h | h | h)
    · exact .inl h.symm
    · exact .inr (.inl h.symm)
    · exact .inr (.inr h.symm)
  · rintro (h | h | h)
    · exact .inl h.symm
    · exact .inr (.inl h.symm)
    · exact .inr (.inr h.symm)

theorem pair_of_sorted {l : List Nat} {v w : Nat} (hs : l.Pairwise (· < ·)) (hl : l.length = 2) (hv : v ∈ l) (hw : w ∈ l) (hvw : v < w) : l = [v, w] := by
  match l, hl with
  | [a, b], _ =>
    simp only [List.mem_cons, List.not_mem_nil, or_false] at hv hw
    simp only [List.pairwise_cons, List.mem_cons, List.not_mem_nil, or_false, forall_eq] at hs
    have := hs.1
    rcases hv with rfl | rfl <;> rcases hw with rfl | rfl
    · omega
    · rfl
    · omega
    · omega

theorem Known.sorted {d : P} {ps : Mesh P} {smV smF base : Nat} {reg : List (Nat × Nat)} {cut : Nat × Nat → List Nat} (K : Known d ps smV smF base reg cut)
    (k : Nat × Nat) : (cut k).Pairwise (· < ·) := (K.cut k.1 k.2).1

theorem Known.lt {d : P} {ps : Mesh P} {smV smF base : Nat} {reg : List (Nat × Nat)} {cut : Nat × Nat → List Nat} (K : Known d ps smV smF base reg cut)
    {k : Nat × Nat} {v w : Nat} (h : cut k = [v, w]) : v < w := by
  have := K.sorted k
  rw [h] at this
  simpa using this

/-- The faces that the edge of a pair is recorded for: those in both registry entries. -/
theorem Known.share {d : P} {ps : Mesh P} {smV smF base : Nat} {reg : List (Nat × Nat)} {cut : Nat × Nat → List Nat} (K : Known d ps smV smF base reg cut)
    (h2 : ∀ k, cut k ≠ [] → (cut k).length = 2) {k : Nat × Nat} {v w : Nat} (hk : cut k = [v, w]) {x y : Nat × Nat} (hx : reg[v - base]? = some x)
    (hy : reg[w - base]? = some y) (g : Nat) :
    (g = k.1 ∨ g = k.2 ∨ (g ∈ ps.facesAroundFace k.1 ++ ps.facesAroundFace k.2 ∧ (registryFaces ps x).contains (some g) = true ∧
      (registryFaces ps y).contains (some g) = true)) ↔ ∃ k' v' w', cut k' = [v', w'] ∧ (g = k'.1 ∨ g = k'.2) ∧ ((v' = v ∧ w' = w) ∨ (v' = w ∧ w' = v)) := by
  obtain ⟨e, f⟩ := x
  obtain ⟨e', f'⟩ := y
  obtain ⟨e0, f0, hb, hr, hk1, hk2, hv⟩ := K.entry (k := k) (v := v) (by rw [hk]; simp)
  rw [hx] at hr
  simp only [Option.some.injEq, Prod.mk.injEq] at hr
  obtain ⟨rfl, rfl⟩ := hr
  obtain ⟨e0, f0, hb', hr, -, -, hw⟩ := K.entry (k := k) (v := w) (by rw [hk]; simp)
  rw [hy] at hr
  simp only [Option.some.injEq, Prod.mk.injEq] at hr
  obtain ⟨rfl, rfl⟩ := hr
  have S := K.sided _ (List.mem_of_getElem? hx)
  have S' := K.sided _ (List.mem_of_getElem? hy)
  have hlt := K.lt hk
  constructor
  · rintro (rfl | rfl | ⟨hg, ha, hb0⟩)
    · exact ⟨k, v, w, hk, .inl rfl, .inl ⟨rfl, rfl⟩⟩
    · exact ⟨k, v, w, hk, .inr rfl, .inl ⟨rfl, rfl⟩⟩
    · by_cases h1 : g = k.1
      · exact ⟨k, v, w, hk, .inl h1, .inl ⟨rfl, rfl⟩⟩
      by_cases h2' : g = k.2
      · exact ⟨k, v, w, hk, .inr h2', .inl ⟨rfl, rfl⟩⟩
      rw [registryFaces_mem] at ha hb0
      have hge : OnEdge ps e g := by
        rcases ha with rfl | h
        · rcases hv with ⟨-, h⟩ | ⟨-, h⟩
          · exact absurd h h2'
          · exact absurd h h1
        · exact h
      have hge' : OnEdge ps e' g := by
        rcases hb0 with rfl | h
        · rcases hw with ⟨-, h⟩ | ⟨-, h⟩
          · exact absurd h h2'
          · exact absurd h h1
        · exact h
      rcases hv with ⟨hv, rfl⟩ | ⟨hv, rfl⟩
      · -- the edge of v belongs to the source mesh
        have hcs : ¬ CutEdge ps smF e := fun h => absurd ((S.one _ hv).2 h) (by omega)
        have hgs : g < smF := by
          by_contra hh
          exact hcs ((S.one _ hge).1 (by omega))
        have hw' : OnEdge ps e' k.1 ∧ f' = k.2 := by
          rcases hw with h | ⟨h, rfl⟩
          · exact h
          · exfalso
            have := (S'.one _ h).1 hk2
            have := (S'.one _ hge').2 this
            omega
        have m1 : v ∈ cut (g, k.2) := K.of_entry hb hx hgs hk2 (.inl ⟨hge, rfl⟩)
        have m2 : w ∈ cut (g, k.2) := K.of_entry hb' hy hgs hk2 (.inl ⟨hge', hw'.2⟩)
        exact ⟨(g, k.2), v, w, pair_of_sorted (K.sorted _) (h2 _ (by intro h; rw [h] at m1; simp at m1)) m1 m2 hlt, .inl rfl, .inl ⟨rfl, rfl⟩⟩
      · have hcs : CutEdge ps smF e := (S.one _ hv).1 hk2
        have hgs : smF ≤ g := (S.one _ hge).2 hcs
        have hw' : OnEdge ps e' k.2 ∧ f' = k.1 := by
          rcases hw with ⟨h, rfl⟩ | h
          · exfalso
            have := (S'.one _ hge').1 hgs
            have := (S'.one _ h).2 this
            omega
          · exact h
        have m1 : v ∈ cut (k.1, g) := K.of_entry hb hx hk1 hgs (.inr ⟨hge, rfl⟩)
        have m2 : w ∈ cut (k.1, g) := K.of_entry hb' hy hk1 hgs (.inr ⟨hge', hw'.2⟩)
        exact ⟨(k.1, g), v, w, pair_of_sorted (K.sorted _) (h2 _ (by intro h; rw [h] at m1; simp at m1)) m1 m2 hlt, .inr rfl, .inl ⟨rfl, rfl⟩⟩
  · rintro ⟨k', v', w', hk', hg, hvw⟩
    have hvw' : v' = v ∧ w' = w := by
      rcases hvw with h | ⟨rfl, rfl⟩
      · exact h
      · have := K.lt hk'; omega
    obtain ⟨rfl, rfl⟩ := hvw'
    obtain ⟨e0, f0, -, hr, hk1', hk2', hv2⟩ := K.entry (k := k') (v := v') (by rw [hk']; simp)
    rw [hx] at hr
    simp only [Option.some.injEq, Prod.mk.injEq] at hr
    obtain ⟨rfl, rfl⟩ := hr
    obtain ⟨e0, f0, -, hr, -, -, hw2⟩ := K.entry (k := k') (v := w') (by rw [hk']; simp)
    rw [hy] at hr
    simp only [Option.some.injEq, Prod.mk.injEq] at hr
    obtain ⟨rfl, rfl⟩ := hr
    by_cases h1 : g = k.1
    · exact .inl h1
    by_cases h2' : g = k.2
    · exact .inr (.inl h2')
    have hreg : ∀ {e f : Nat}, ((OnEdge ps e k'.1 ∧ f = k'.2) ∨ (OnEdge ps e k'.2 ∧ f = k'.1)) → (registryFaces ps (e, f)).contains (some g) = true := by
      intro e f h
      rw [registryFaces_mem]
      rcases h with ⟨h, rfl⟩ | ⟨h, rfl⟩ <;> rcases hg with rfl | rfl
      · exact .inr h
      · exact .inl rfl
      · exact .inl rfl
      · exact .inr h
    refine .inr (.inr ⟨?_, hreg hv2, hreg hw2⟩)
    have hl := K.live _ (List.mem_of_getElem? hx)
    have hge : OnEdge ps e g := by
      have := (registryFaces_mem ps e f g).1 (hreg hv2)
      rcases this with rfl | h
      · rcases hv with ⟨-, h⟩ | ⟨-, h⟩
        · exact absurd h h2'
        · exact absurd h h1
      · exact h
    rw [List.mem_append]
    rcases hv with ⟨h, -⟩ | ⟨h, -⟩
    · exact .inl (mem_around K.reach hl h hge h1)
    · exact .inr (mem_around K.reach hl h hge h2')

/-- A mesh that has only vertices, `n` of them, numbered from 0. -/
structure Bare (d : P) (m : Mesh P) (n : Nat) : Prop where
  reach : Reachable d m
  vRem : m.vRem = []
  nV : m.nV = n
  nE : m.nE = 0
  eRem : m.eRem = []
  nF : m.nF = 0
  fRem : m.fRem = []

theorem Bare.add {d : P} {m : Mesh P} {n : Nat} (B : Bare d m n) (p : P) : Bare d (m.addVertex p).1 (n + 1) ∧ (m.addVertex p).1.pos = upd m.pos n p := by
  have hr : Reachable d (m.addVertex p).1 := .step m (.addVertex _) B.reach trivial
  have e : m.addVertex p = ({ m with nV := m.nV + 1, vh := upd m.vh m.nV [], pos := upd m.pos m.nV p }, m.nV) := by
    simp [Mesh.addVertex, B.vRem, Mesh.numVertices]
  rw [e] at hr ⊢
  exact ⟨⟨hr, B.vRem, by simp [B.nV], B.nE, B.eRem, B.nF, B.fRem⟩, by simp [B.nV]⟩

theorem addPoints_bare {d : P} : ∀ (pts : List P) (m : Mesh P) (n : Nat), Bare d m n → Bare d (addPoints m pts) (n + pts.length) ∧
    (∀ v, v < n → (addPoints m pts).pos v = m.pos v) ∧ ∀ (i : Nat) p, pts[i]? = some p → (addPoints m pts).pos (n + i) = p := by
  intro pts
  induction pts with
  | nil => intro m n B; exact ⟨B, fun _ _ => rfl, fun i p h => by simp at h⟩
  | cons a pts ih =>
    intro m n B
    obtain ⟨B1, hp⟩ := B.add a
    obtain ⟨B2, h1, h2⟩ := ih _ _ B1
    have e : addPoints m (a :: pts) = addPoints (m.addVertex a).1 pts := rfl
    rw [e]
    refine ⟨by rw [List.length_cons, show n + (pts.length + 1) = n + 1 + pts.length by omega]; exact B2, fun v hv => ?_, fun i p hi => ?_⟩
    · rw [h1 v (by omega), hp, upd_other _ _ _ _ (by omega)]
    · cases i with
      | zero =>
        rw [Nat.add_zero, h1 n (by omega), hp, upd_same]
        simpa using hi
      | succ i =>
        rw [show n + (i + 1) = n + 1 + i by omega]
        exact h2 i p (by simpa using hi)

theorem copyVertices_bare {d : P} {ps : Mesh P} (I : Extract.Intact d ps) : Bare d (Extract.copyVertices d ps).1 ps.numVertices := by
  have key : ∀ (l : List Nat) (s : Mesh P × List Nat) n, Bare d s.1 n →
      Bare d (l.foldl (fun (s : Mesh P × List Nat) i => ((s.1.addVertex (ps.pos i)).1, s.2 ++ [i])) s).1 (n + l.length) := by
    intro l
    induction l with
    | nil => intro s n B; exact B
    | cons a l ih =>
      intro s n B
      rw [List.foldl_cons, List.length_cons, show n + (l.length + 1) = n + 1 + l.length by omega]
      exact ih _ _ (B.add _).1
  rw [I.numV]
  unfold Extract.copyVertices
  rw [I.noRemoved.1, Extract.enum_nil]
  have := key (List.range ps.nV) (Mesh.empty d, []) 0 ⟨.empty, rfl, rfl, rfl, rfl, rfl, rfl⟩
  simpa using this

/-- The loop invariant. -/
structure Prog (d : P) (m : Mesh P) (cut : Nat × Nat → List Nat) (ks : List (Nat × Nat)) (st : St P) : Prop where
  reach : Reachable d st.m0
  vRem : st.m0.vRem = []
  nV : st.m0.nV = m.nV
  pos : st.m0.pos = m.pos
  nE : st.m0.nE = st.cutEdges.length
  eRem : st.m0.eRem = []
  nF : st.m0.nF = 0
  fRem : st.m0.fRem = []
  numbers : st.cutEdges = List.range st.cutEdges.length
  only : ∀ e, e < st.cutEdges.length → ∃ k v w, cut k = [v, w] ∧ Joins st.m0 e v w
  every : ∀ k ∈ ks, ∀ v w, cut k = [v, w] → ∃ e, e < st.cutEdges.length ∧ Joins st.m0 e v w
  once : ∀ e, e < st.cutEdges.length → ∀ e', e' < st.cutEdges.length → ∀ v w, Joins st.m0 e v w → Joins st.m0 e' v w → e = e'
  facesNodup : ∀ f, (st.faceEdges f).Nodup
  faces : ∀ f e, e ∈ st.faceEdges f ↔ e < st.cutEdges.length ∧ ∃ k v w, cut k = [v, w] ∧ (f = k.1 ∨ f = k.2) ∧ Joins st.m0 e v w
  incoming : st.incoming = st.m0.vh

theorem Prog.liveE {d : P} {m : Mesh P} {cut : Nat × Nat → List Nat} {ks : List (Nat × Nat)} {st : St P} (p : Prog d m cut ks st) (e : Nat) :
    LiveE st.m0 e ↔ e < st.cutEdges.length := by
  show e < st.m0.nE ∧ e ∉ st.m0.eRem ↔ _
  rw [p.eRem, p.nE]; simp

/-- An edge between two vertices exists or not. -/
theorem halfedge_joins {m0 : Mesh P} (W : WF m0) {v w : Nat} (hne : v ≠ w) : (m0.halfedge v w true).isSome ↔ ∃ e, LiveE m0 e ∧ Joins m0 e v w := by
  have hv : ∀ h, m0.target h = (m0.hd h).t := fun _ => rfl
  constructor
  · intro h
    obtain ⟨h, hh⟩ := Option.isSome_iff_exists.1 h
    obtain ⟨h1, h2, h3⟩ := halfedge_some W v w hne h hh
    refine ⟨h / 2, (W.liveH_iff h).1 h1, ?_⟩
    unfold Joins Mesh.edgeVertex
    rw [hv, hv]
    rcases Nat.mod_two_eq_zero_or_one h with e | e
    · have e1 : h / 2 * 2 + 0 = h := by omega
      have e2 : h / 2 * 2 + 1 = opposite h := by unfold opposite; rw [if_pos e]; omega
      rw [e1, e2]; exact .inr ⟨h3, h2⟩
    · have e1 : h / 2 * 2 + 1 = h := by omega
      have e2 : h / 2 * 2 + 0 = opposite h := by unfold opposite; rw [if_neg (by omega)]; omega
      rw [e1, e2]; exact .inl ⟨h2, h3⟩
  · rintro ⟨e, he, hj⟩
    by_contra hn
    have hn' : m0.halfedge v w true = none := by simpa using hn
    rw [halfedge_none W v w hne] at hn'
    have l0 : LiveH m0 (e * 2 + 0) := by rw [W.liveH_iff, show (e * 2 + 0) / 2 = e by omega]; exact he
    have l1 : LiveH m0 (e * 2 + 1) := by rw [W.liveH_iff, show (e * 2 + 1) / 2 = e by omega]; exact he
    have o0 : opposite (e * 2 + 0) = e * 2 + 1 := by unfold opposite; split <;> omega
    have o1 : opposite (e * 2 + 1) = e * 2 + 0 := by unfold opposite; split <;> omega
    unfold Joins Mesh.edgeVertex at hj
    rw [hv, hv] at hj
    rcases hj with ⟨h1, h2⟩ | ⟨h1, h2⟩
    · exact hn' _ l1 (by rw [W.source l1, o1, h1]) h2
    · exact hn' _ l0 (by rw [W.source l0, o0, h2]) h1

theorem two_spec {d : P} {ps : Mesh P} {smV smF base : Nat} {reg : List (Nat × Nat)} {cut : Nat × Nat → List Nat} (K : Known d ps smV smF base reg cut)
    (h2 : ∀ k, cut k ≠ [] → (cut k).length = 2) {m : Mesh P} (hm : m.nV = base + reg.length) {ks : List (Nat × Nat)} {st : St P} (p : Prog d m cut ks st)
    {k : Nat × Nat} {v w : Nat} (hk : cut k = [v, w]) : ∃ st', two ps base reg k.1 k.2 v w st = some st' ∧ Prog d m cut (ks ++ [k]) st' := by
  classical
  have W := reachable_wf p.reach
  have hlt := K.lt hk
  have hne : v ≠ w := by omega
  unfold two
  have every' : ∀ (st' : St P), (∀ k' ∈ ks, ∀ v w, cut k' = [v, w] → ∃ e, e < st'.cutEdges.length ∧ Joins st'.m0 e v w) →
      (∃ e, e < st'.cutEdges.length ∧ Joins st'.m0 e v w) →
      ∀ k' ∈ ks ++ [k], ∀ v w, cut k' = [v, w] → ∃ e, e < st'.cutEdges.length ∧ Joins st'.m0 e v w := by
    intro st' h1 h2 k' hk' v' w' hc
    rw [List.mem_append, List.mem_singleton] at hk'
    rcases hk' with h | rfl
    · exact h1 k' h v' w' hc
    · rw [hk] at hc; injection hc with e1 e2; injection e2 with e2 _; subst e1 e2; exact h2
  by_cases hex : (st.m0.halfedge v w true).isSome
  · rw [if_pos hex]
    obtain ⟨e, he, hj⟩ := (halfedge_joins W hne).1 hex
    exact ⟨st, rfl, { p with every := every' st p.every ⟨e, (p.liveE e).1 he, hj⟩ }⟩
  rw [if_neg hex]
  have hno : ∀ e, e < st.cutEdges.length → ¬ Joins st.m0 e v w := fun e he hj => hex ((halfedge_joins W hne).2 ⟨e, (p.liveE e).2 he, hj⟩)
  obtain ⟨ev, fv, hbv, hrv, hk1, hk2, hv⟩ := K.entry (k := k) (v := v) (by rw [hk]; simp)
  obtain ⟨ew, fw, hbw, hrw, -, -, hw⟩ := K.entry (k := k) (v := w) (by rw [hk]; simp)
  rw [hrv, hrw]
  simp only [Option.bind_some]
  refine ⟨_, rfl, ?_⟩
  obtain ⟨a1, E⟩ := addEdge_spec W v w hne
  have hnew : newEdge st.m0 = st.cutEdges.length := by unfold newEdge; rw [p.eRem]; exact p.nE
  rw [hnew] at a1 E
  have hlv : LiveV st.m0 v := ⟨by rw [p.nV, hm]; have := (List.getElem?_eq_some_iff.1 hrv).1; omega, by rw [p.vRem]; simp⟩
  have hlw : LiveV st.m0 w := ⟨by rw [p.nV, hm]; have := (List.getElem?_eq_some_iff.1 hrw).1; omega, by rw [p.vRem]; simp⟩
  have hr' : Reachable d (st.m0.addEdge v w).1 := .step st.m0 (.addEdge v w) p.reach ⟨hlv, hlw, hne⟩
  have hedge : edgeOf (st.m0.addEdge v w).2 = st.cutEdges.length := by rw [a1]; unfold edgeOf; omega
  have hopp : opposite (2 * st.cutEdges.length) = 2 * st.cutEdges.length + 1 := opposite_even _
  rw [a1] at hedge
  have hsh := K.share h2 hk hrv hrw
  generalize hA : (registryFaces ps (ev, fv)) = A at *
  generalize hB : (registryFaces ps (ew, fw)) = B at *
  unfold addCut updateNeighbours
  simp only [List.foldl_cons, List.foldl_nil, a1, hedge, hopp]
  generalize hme : (st.m0.addEdge v w).1 = me at *
  generalize hn : st.cutEdges.length = n at *
  have eRem' : me.eRem = [] := by rw [← hme]; unfold Mesh.addEdge Mesh.allocHalfedge Mesh.allocEdge; grind [p.eRem]
  have nE' : me.nE = n + 1 := by
    have h1 := (E.live n).2 (.inr rfl)
    have h2 : ∀ x, x < me.nE ↔ x < n ∨ x = n := by
      intro x
      have := E.live x
      unfold LiveE Live at this
      rw [eRem', p.eRem, p.nE, hn] at this
      simpa using this
    have h3 := (h2 n).2 (.inr rfl)
    have h4 : ¬ n + 1 < me.nE := fun h => by have := (h2 (n + 1)).1 h; omega
    omega
  have hold : ∀ e v' w', e < n → (Joins me e v' w' ↔ Joins st.m0 e v' w') := by
    intro e v' w' he
    unfold Joins Mesh.edgeVertex Mesh.target
    rw [E.hd (e * 2 + 0) (by omega), E.hd (e * 2 + 1) (by omega)]
  have hnewJ : ∀ v' w', Joins me n v' w' ↔ (v' = v ∧ w' = w) ∨ (v' = w ∧ w' = v) := by
    intro v' w'
    unfold Joins Mesh.edgeVertex Mesh.target
    rw [show n * 2 + 0 = 2 * n by omega, show n * 2 + 1 = 2 * n + 1 by omega, E.hd0, E.hd1]
    simp only
    constructor
    · rintro (⟨rfl, rfl⟩ | ⟨rfl, rfl⟩) <;> simp
    · rintro (⟨rfl, rfl⟩ | ⟨rfl, rfl⟩) <;> simp
  have hlen : (st.cutEdges ++ [n]).length = n + 1 := by simp [hn]
  have hfresh : ∀ f, n ∉ st.faceEdges f := fun f hf => by have := ((p.faces f n).1 hf).1; omega
  have hsc : k.1 ≠ k.2 := by omega
  -- the edges of each face
  have hF : ∀ g, (ps.facesAroundFace k.1 ++ ps.facesAroundFace k.2).foldl (fun M g => if (A.contains (some g) && B.contains (some g)) = true then
      (if (M g).contains n then M else push M g n) else M) (push (push st.faceEdges k.1 n) k.2 n) g =
      if ∃ k' v' w', cut k' = [v', w'] ∧ (g = k'.1 ∨ g = k'.2) ∧ ((v' = v ∧ w' = w) ∨ (v' = w ∧ w' = v)) then st.faceEdges g ++ [n] else st.faceEdges g := by
    intro g
    rw [neighbours_fold (fun g => A.contains (some g) && B.contains (some g))]
    by_cases g1 : g = k.1
    · rw [if_pos ((hsh g).1 (.inl g1))]
      subst g1
      rw [push_other _ _ hsc, push_same, if_neg (by simp)]
    by_cases g2 : g = k.2
    · rw [if_pos ((hsh g).1 (.inr (.inl g2)))]
      subst g2
      rw [push_same, push_other _ _ (Ne.symm hsc), if_neg (by simp)]
    rw [push_other _ _ g2, push_other _ _ g1]
    have : (g ∈ ps.facesAroundFace k.1 ++ ps.facesAroundFace k.2 ∧ (A.contains (some g) && B.contains (some g)) = true ∧ n ∉ st.faceEdges g) ↔
        ∃ k' v' w', cut k' = [v', w'] ∧ (g = k'.1 ∨ g = k'.2) ∧ ((v' = v ∧ w' = w) ∨ (v' = w ∧ w' = v)) := by
      rw [← hsh g, Bool.and_eq_true]
      constructor
      · rintro ⟨h1, h2, -⟩; exact .inr (.inr ⟨h1, h2⟩)
      · rintro (h | h | ⟨h1, h2⟩)
        · exact absurd h g1
        · exact absurd h g2
        · exact ⟨h1, h2, hfresh g⟩
    simp only [this]
  refine ⟨hr', by rw [E.vRem]; exact p.vRem, by rw [E.nV]; exact p.nV, by rw [E.pos]; exact p.pos, ?_, eRem', by rw [E.nF]; exact p.nF,
    by rw [E.fRem]; exact p.fRem, ?_, ?_, ?_, ?_, ?_, ?_, ?_⟩
  · simp only [hlen]; exact nE'
  · simp only [hlen]; rw [p.numbers, hn, List.range_succ]
  · simp only [hlen]
    intro e he
    rcases Nat.lt_or_ge e n with h | h
    · obtain ⟨k', v', w', hc, hj⟩ := p.only e (by omega)
      exact ⟨k', v', w', hc, (hold e v' w' h).2 hj⟩
    · have : e = n := by omega
      subst this
      exact ⟨k, v, w, hk, (hnewJ v w).2 (.inl ⟨rfl, rfl⟩)⟩
  · refine every' _ ?_ ?_
    · simp only [hlen]
      intro k' hk' v' w' hc
      obtain ⟨e, he, hj⟩ := p.every k' hk' v' w' hc
      rw [hn] at he
      exact ⟨e, by omega, (hold e v' w' he).2 hj⟩
    · simp only [hlen]
      exact ⟨n, by omega, (hnewJ v w).2 (.inl ⟨rfl, rfl⟩)⟩
  · simp only [hlen]
    intro e he e' he' v' w' hj hj'
    have hnj : ∀ e, e < n → Joins me e v' w' → Joins me n v' w' → False := by
      intro e he h1 h2
      rw [hold e v' w' he] at h1
      rcases (hnewJ v' w').1 h2 with ⟨rfl, rfl⟩ | ⟨rfl, rfl⟩
      · exact hno e he h1
      · exact hno e he (joins_swap.1 h1)
    rcases Nat.lt_or_ge e n with h | h <;> rcases Nat.lt_or_ge e' n with h' | h'
    · exact p.once e (by omega) e' (by omega) v' w' ((hold e v' w' h).1 hj) ((hold e' v' w' h').1 hj')
    · have : e' = n := by omega
      subst this; exact absurd hj' (fun hj' => hnj e h hj hj')
    · have : e = n := by omega
      subst this; exact absurd hj (fun hj => hnj e' h' hj' hj)
    · omega
  · intro f
    simp only [hF]
    split
    · rw [List.nodup_append]
      exact ⟨p.facesNodup f, by simp, fun a ha b hb hab => by simp at hb; subst hb hab; exact hfresh f ha⟩
    · exact p.facesNodup f
  · intro f e
    simp only [hF, hlen]
    have hb : (∃ k' v' w', cut k' = [v', w'] ∧ (f = k'.1 ∨ f = k'.2) ∧ ((v' = v ∧ w' = w) ∨ (v' = w ∧ w' = v))) ↔
        ∃ k' v' w', cut k' = [v', w'] ∧ (f = k'.1 ∨ f = k'.2) ∧ Joins me n v' w' := by simp only [hnewJ]
    rcases Nat.lt_or_ge e n with h | h
    · have : e ∈ (if ∃ k' v' w', cut k' = [v', w'] ∧ (f = k'.1 ∨ f = k'.2) ∧ ((v' = v ∧ w' = w) ∨ (v' = w ∧ w' = v)) then st.faceEdges f ++ [n] else st.faceEdges f) ↔
          e ∈ st.faceEdges f := by
        split
        · simp only [List.mem_append, List.mem_singleton]
          constructor
          · rintro (h1 | h1)
            · exact h1
            · omega
          · exact .inl
        · rfl
      rw [this, p.faces f e, hn]
      simp only [hold e _ _ h]
      constructor
      · rintro ⟨-, hh⟩; exact ⟨by omega, hh⟩
      · rintro ⟨-, hh⟩; exact ⟨h, hh⟩
    · by_cases he : e = n
      · subst he
        rw [hb]
        constructor
        · intro hh
          split at hh
          · rename_i hx; exact ⟨by omega, hx⟩
          · exact absurd hh (hfresh f)
        · rintro ⟨-, hx⟩
          rw [if_pos hx]; simp
      · constructor
        · intro hh
          exfalso
          split at hh
          · simp only [List.mem_append, List.mem_singleton] at hh
            rcases hh with hh | hh
            · have := ((p.faces f e).1 hh).1; omega
            · exact he hh
          · have := ((p.faces f e).1 hh).1; omega
        · rintro ⟨hh, -⟩; omega
  · funext x
    rw [E.vh x, ← p.incoming]
    simp only [push]
    by_cases x1 : x = v
    · subst x1
      rw [if_pos rfl, if_neg hne]
      simp [hne]
    · by_cases x2 : x = w
      · subst x2; simp [x1]
      · simp [x1, x2]

end Mcut.CutEdges
