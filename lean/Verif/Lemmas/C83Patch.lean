import Verif.Lemmas.C83Mesh
import Verif.Lemmas.C77Scene
import Verif.Lemmas.C77Env

/-! Lemmas for C83: one polygon is stitched. -/
namespace Mcut.Stitch
open Mcut.Hmesh Mcut.Extract
open Mcut.Split (Plain edgeOf_opposite opposite_opposite opposite_ne)
open Mcut.Trace (src src_of Round Follows)
variable {P : Type} {d : P} {E : Env P} {m1 mS : Mesh P} {k numCut : Nat} {l : List Nat} {X : Nat → Nat} {D : Nat → Prop} {s : St P} {pl : Nat → Option Nat}

/-- Halfedge `h` belongs to one of the polygons `l`. -/
def Of (E : Env P) (l : List Nat) (h : Nat) : Prop := ∃ j ∈ l, ∃ p, E.two.polys[j]? = some p ∧ h ∈ p

/-- What is known about patch `k`, with the polygons `l`: halfedges below `numCut` are those on the cut; `X` gives the vertex of "m1" for an intersection point. -/
structure Sheet (d : P) (E : Env P) (m1 : Mesh P) (k numCut : Nat) (l : List Nat) (X : Nat → Nat) : Prop where
  m0ok : Reachable d E.m0
  base : E.base ≤ m1.nV
  place : ∀ v, v < E.base → m1.pos v = E.m0.pos v
  nodup : l.Nodup
  poly : ∀ j ∈ l, ∃ p, E.two.polys[j]? = some p ∧ Round E.m0 p ∧ p.Nodup ∧ ∀ h ∈ p, LiveH E.m0 h
  once : ∀ i ∈ l, ∀ j ∈ l, ∀ p q h, E.two.polys[i]? = some p → E.two.polys[j]? = some q → h ∈ p → h ∈ q → i = j
  user : ∀ h, numCut ≤ h → Of E l h → ∃ u, userIn E k (opposite h) = some u ∧ ∀ j, u = some j ↔ j ∈ l ∧ ∃ p, E.two.polys[j]? = some p ∧ opposite h ∈ p
  cutEnds : ∀ h, Of E l h → (h < numCut ↔ E.base ≤ src E.m0 h ∧ E.base ≤ E.m0.target h)
  cutKind : ∀ h, Of E l h → h < numCut → interior E h = some true
  glue : ∀ h, Of E l h → h < numCut → ∃ g, atCut E h = some g ∧ edgeOf g < m1.nE ∧ src m1 g = X (src E.m0 h) ∧ m1.target g = X (E.m0.target h)
  ahead : ∀ j ∈ l, ∀ p, E.two.polys[j]? = some p → ∀ h n, Follows p h n → src E.m0 h < E.base → E.base ≤ E.m0.target h → n < numCut
  point : ∀ h, Of E l h → E.base ≤ E.m0.target h → E.base ≤ X (E.m0.target h) ∧ X (E.m0.target h) < m1.nV
  inj : ∀ h h', Of E l h → Of E l h' → E.base ≤ E.m0.target h → E.base ≤ E.m0.target h' → X (E.m0.target h) = X (E.m0.target h') → E.m0.target h = E.m0.target h'
  noFixed : E.fixed = []

/-- Vertex `w` stands for vertex `v` of "m0". -/
def Over (E : Env P) (X : Nat → Nat) (pl : Nat → Option Nat) (v w : Nat) : Prop := if v < E.base then pl v = some w else w = X v

/-- Halfedge `g` stands for halfedge `h` of "m0". -/
def Img (E : Env P) (X : Nat → Nat) (m : Mesh P) (pl : Nat → Option Nat) (h g : Nat) : Prop :=
  edgeOf g < m.nE ∧ Over E X pl (src E.m0 h) (src m g) ∧ Over E X pl (E.m0.target h) (m.target g)

/-- The mesh, and the vertices that stand for original vertices. -/
structure VInv (d : P) (E : Env P) (m1 mS : Mesh P) (k : Nat) (m : Mesh P) (pl : Nat → Option Nat) : Prop where
  plain : Plain d m
  single : Single m
  grown1 : Grown m1 m
  grownS : Grown mS m
  old : ∀ v w, pl v = some w → v < E.base ∧ w < m.nV ∧ m.pos w = E.m0.pos v
  same : k % E.ccw = k → pl = fun v => if v < E.base then some v else none
  fresh : k % E.ccw ≠ k → ∀ v w, pl v = some w → mS.nV ≤ w
  inj : ∀ v v' w, pl v = some w → pl v' = some w → v = v'

/-- The halfedges, too. `D` are the polygons that have been begun. -/
structure Inv (d : P) (E : Env P) (m1 mS : Mesh P) (k : Nat) (l : List Nat) (X : Nat → Nat) (D : Nat → Prop) (s : St P) (pl : Nat → Option Nat) : Prop where
  v : VInv d E m1 mS k s.m pl
  inst : ∀ h g, s.inst k h = some g → (∃ j ∈ l, D j ∧ ∃ p, E.two.polys[j]? = some p ∧ h ∈ p) ∧ Img E X s.m pl h g
  seen : k % E.ccw ≠ k → ∀ v w, pl v = some w → ∃ h, LiveH E.m0 h ∧ E.m0.target h = v ∧ (s.inst k h).isSome

/-- From one state to a later one. -/
structure Later (k : Nat) (s s' : St P) (pl pl' : Nat → Option Nat) : Prop where
  grown : Grown s.m s'.m
  pl : ∀ v w, pl v = some w → pl' v = some w
  others : ∀ i, i ≠ k → s'.inst i = s.inst i
  inst : ∀ h g, s.inst k h = some g → s'.inst k h = some g
  polys : s'.polys = s.polys
  faces : s'.faces = s.faces
  cmv : s'.cmv = s.cmv

theorem Later.refl (k : Nat) (s : St P) (pl : Nat → Option Nat) : Later k s s pl pl := ⟨Grown.refl _, fun _ _ h => h, fun _ _ => rfl, fun _ _ h => h, rfl, rfl, rfl⟩

theorem Later.trans {s1 s2 s3 : St P} {p1 p2 p3 : Nat → Option Nat} (a : Later k s1 s2 p1 p2) (b : Later k s2 s3 p2 p3) : Later k s1 s3 p1 p3 :=
  ⟨a.grown.trans b.grown, fun v w h => b.pl v w (a.pl v w h), fun i hi => by rw [b.others i hi, a.others i hi], fun h g e => b.inst h g (a.inst h g e), by rw [b.polys, a.polys],
    by rw [b.faces, a.faces], by rw [b.cmv, a.cmv]⟩

theorem Over.mono {pl pl' : Nat → Option Nat} (h : ∀ v w, pl v = some w → pl' v = some w) {v w : Nat} (o : Over E X pl v w) : Over E X pl' v w := by
  unfold Over at *
  split
  · rename_i hv; rw [if_pos hv] at o; exact h _ _ o
  · rename_i hv; rw [if_neg hv] at o; exact o

theorem Img.mono {m m' : Mesh P} {pl pl' : Nat → Option Nat} (g : Grown m m') (h : ∀ v w, pl v = some w → pl' v = some w) {x y : Nat} (i : Img E X m pl x y) : Img E X m' pl' x y := by
  obtain ⟨i1, i2, i3⟩ := i
  have := g.nE
  refine ⟨by omega, ?_, ?_⟩
  · rw [(g.ends y i1).1]; exact i2.mono h
  · rw [(g.ends y i1).2]; exact i3.mono h

theorem Over.unique {pl : Nat → Option Nat} {v w w' : Nat} (a : Over E X pl v w) (b : Over E X pl v w') : w = w' := by
  unfold Over at *
  split at a
  · rename_i hv; rw [if_pos hv, a] at b; exact Option.some.inj b
  · rename_i hv; rw [if_neg hv] at b; rw [a, b]

/-- Every vertex of the patch is the end of one of its halfedges. -/
theorem Sheet.prev (S : Sheet d E m1 k numCut l X) {h : Nat} (hh : Of E l h) : ∃ h', Of E l h' ∧ E.m0.target h' = src E.m0 h := by
  obtain ⟨j, hj, p, hp, hm⟩ := hh
  obtain ⟨p', hp', R, nd, live⟩ := S.poly j hj
  rw [hp] at hp'
  obtain rfl := Option.some.inj hp'
  obtain ⟨x, f, e⟩ := _root_.Mcut.Trace.follows_prev R.cyclic hm
  exact ⟨x, ⟨j, hj, p, hp, f.mem.1⟩, e⟩

theorem Sheet.live (S : Sheet d E m1 k numCut l X) {h : Nat} (hh : Of E l h) : LiveH E.m0 h := by
  obtain ⟨j, hj, p, hp, hm⟩ := hh
  obtain ⟨p', hp', R, nd, live⟩ := S.poly j hj
  rw [hp] at hp'
  obtain rfl := Option.some.inj hp'
  exact live h hm

/-- Different vertices of the patch are in different vertices. -/
theorem Sheet.ne (S : Sheet d E m1 k numCut l X) {m : Mesh P} (V : VInv d E m1 mS k m pl) (hS : m1.nV ≤ mS.nV) {h h' : Nat} (hh : Of E l h) (hh' : Of E l h') {w w' : Nat}
    (o : Over E X pl (E.m0.target h) w) (o' : Over E X pl (E.m0.target h') w') (e : w = w') : E.m0.target h = E.m0.target h' := by
  subst e
  unfold Over at *
  have key : ∀ x y, Of E l x → E.m0.target y < E.base → pl (E.m0.target y) = some w → ¬ E.m0.target x < E.base → w = X (E.m0.target x) → False := by
    intro x y hx hy h1 h2 h3
    obtain ⟨p1, p2⟩ := S.point x hx (by omega)
    by_cases hc : k % E.ccw = k
    · have := V.same hc
      rw [this] at h1
      simp only [if_pos hy] at h1
      have := Option.some.inj h1
      omega
    · have := V.fresh hc _ _ h1
      omega
  split at o
  · rename_i c1
    split at o'
    · exact V.inj _ _ _ o o'
    · rename_i c2
      exact (key h' h hh' c1 o c2 o').elim
  · rename_i c1
    split at o'
    · rename_i c2
      exact (key h h' hh c2 o' c1 o).elim
    · rename_i c2
      exact S.inj h h' hh hh' (by omega) (by omega) (by rw [← o, ← o'])

theorem Over.lt (S : Sheet d E m1 k numCut l X) {m : Mesh P} (V : VInv d E m1 mS k m pl) {h w : Nat} (hh : Of E l h) (o : Over E X pl (E.m0.target h) w) : w < m.nV := by
  unfold Over at o
  split at o
  · exact (V.old _ _ o).2.1
  · have := S.point h hh (by omega)
    have := V.grown1.nV
    omega

/-- The vertex for an original vertex. -/
theorem originalEnd_spec (S : Sheet d E m1 k numCut l X) (I : Inv d E m1 mS k l X D s pl) {h n : Nat} (hh : Of E l h) (hn : src E.m0 n = E.m0.target h) (ht : E.m0.target h < E.base) :
    ∃ m' w pl', originalEnd E s k h n = (m', w) ∧ VInv d E m1 mS k m' pl' ∧ Grown s.m m' ∧ (∀ v w, pl v = some w → pl' v = some w) ∧ pl' (E.m0.target h) = some w ∧
      ∀ v w, pl' v = some w → pl v = some w ∨ v = E.m0.target h := by
  have hl := S.live hh
  have flip := src_of S.m0ok hl
  unfold originalEnd
  by_cases hc : k % E.ccw = k
  · rw [if_pos hc]
    refine ⟨s.m, _, pl, rfl, I.v, Grown.refl _, fun _ _ h => h, ?_, fun _ _ h => .inl h⟩
    rw [I.v.same hc]
    simp only [if_pos ht]
  · rw [if_neg hc]
    -- whatever is found stands for the vertex
    have found : ∀ {w}, pl (E.m0.target h) = some w → ∃ m' w' pl', (s.m, w) = (m', w') ∧ VInv d E m1 mS k m' pl' ∧ Grown s.m m' ∧ (∀ v w, pl v = some w → pl' v = some w) ∧
        pl' (E.m0.target h) = some w' ∧ ∀ v w, pl' v = some w → pl v = some w ∨ v = E.m0.target h :=
      fun hw => ⟨s.m, _, pl, rfl, I.v, Grown.refl _, fun _ _ h => h, hw, fun _ _ h => .inl h⟩
    cases h1 : s.inst k (opposite h) with
    | some g =>
      have := (I.inst _ _ h1).2.2.1
      rw [flip.2.2.1] at this
      unfold Over at this
      rw [if_pos ht] at this
      exact found this
    | none =>
      cases h2 : s.inst k n with
      | some g =>
        have := (I.inst _ _ h2).2.2.1
        rw [hn] at this
        unfold Over at this
        rw [if_pos ht] at this
        exact found this
      | none =>
        cases h3 : neighbour s k (E.m0.vh (E.m0.target h)) with
        | some g =>
          unfold neighbour at h3
          obtain ⟨x, x1, x2⟩ := List.exists_of_findSome?_eq_some h3
          have ht' : E.m0.target x = E.m0.target h := (((reachable_wf S.m0ok).vh_mem _ _).1 x1).2
          have := (I.inst _ _ x2).2.2.2
          rw [ht'] at this
          unfold Over at this
          rw [if_pos ht] at this
          exact found this
        | none =>
          have hnone : pl (E.m0.target h) = none := by
            cases hp : pl (E.m0.target h) with
            | none => rfl
            | some w =>
              exfalso
              obtain ⟨x, x1, x2, x3⟩ := I.seen hc _ _ hp
              unfold neighbour at h3
              rw [List.findSome?_eq_none_iff] at h3
              have := h3 x (((reachable_wf S.m0ok).vh_mem _ _).2 ⟨x1, x2⟩)
              rw [this] at x3; cases x3
          have hf : E.fixed.contains (E.m0.target h) = false := by rw [S.noFixed]; rfl
          simp only [hf, Bool.false_eq_true, if_false]
          obtain ⟨a1, a2, a3, a4, a5, a6⟩ := grown_vertex I.v.plain I.v.single (E.m0.pos (E.m0.target h))
          have hS := I.v.grownS.nV
          refine ⟨(s.m.addVertex (E.m0.pos (E.m0.target h))).1, (s.m.addVertex (E.m0.pos (E.m0.target h))).2, upd pl (E.m0.target h) (some s.m.nV), rfl, ?_, a4, ?_, ?_, ?_⟩
          · refine ⟨a2, a3, I.v.grown1.trans a4, I.v.grownS.trans a4, ?_, fun h => absurd h hc, ?_, ?_⟩
            · intro v w hv
              unfold upd at hv
              split at hv
              · rename_i e; subst e
                obtain rfl := Option.some.inj hv
                exact ⟨ht, by omega, a6⟩
              · obtain ⟨b1, b2, b3⟩ := I.v.old v w hv
                exact ⟨b1, by omega, by rw [a4.pos w b2]; exact b3⟩
            · intro _ v w hv
              unfold upd at hv
              split at hv
              · have := Option.some.inj hv; omega
              · exact I.v.fresh hc v w hv
            · intro v v' w hv hv'
              unfold upd at hv hv'
              split at hv <;> split at hv'
              · rename_i e e'; rw [e, e']
              · have := Option.some.inj hv; have := (I.v.old _ _ hv').2.1; omega
              · have := Option.some.inj hv'; have := (I.v.old _ _ hv).2.1; omega
              · exact I.v.inj _ _ _ hv hv'
          · intro v w hv
            unfold upd
            split
            · rename_i e; rw [e, hnone] at hv; cases hv
            · exact hv
          · unfold upd; rw [if_pos rfl, a1]
          · intro v w hv
            unfold upd at hv
            split at hv
            · rename_i e; exact .inr e
            · exact .inl hv

/-- One halfedge. -/
theorem visit_spec (S : Sheet d E m1 k numCut l X) (hS : m1.nV ≤ mS.nV) (I : Inv d E m1 mS k l X D s pl) {j h n first : Nat} {p acc : List Nat} {last : Bool} (hj : j ∈ l) (hD : D j) (hp : E.two.polys[j]? = some p)
    (hf : Follows p h n) (ha : Over E X pl (src E.m0 h) (s.m.target (acc.getLastD 0))) (hlast : last = true → Over E X pl (E.m0.target h) (src s.m first)) :
    ∃ s' g pl', visit E k first (s, acc) (h, n, last) = some (s', acc ++ [g]) ∧ Inv d E m1 mS k l X D s' pl' ∧ Later k s s' pl pl' ∧ Img E X s'.m pl' h g ∧ (s'.inst k h).isSome := by
  have hh : Of E l h := ⟨j, hj, p, hp, hf.mem.1⟩
  have hl := S.live hh
  obtain ⟨hm, he⟩ := S.prev hh
  have flip := src_of S.m0ok hl
  obtain ⟨p', hp', R, nd, live⟩ := S.poly j hj
  rw [hp] at hp'
  obtain rfl := Option.some.inj hp'
  have hnx : src E.m0 n = E.m0.target h := by
    obtain ⟨y, f1, f2⟩ := _root_.Mcut.Trace.follows_next R.cyclic hf.mem.1
    have : y = n := by
      obtain ⟨a, a1, a2⟩ := f1
      obtain ⟨b, b1, b2⟩ := hf
      have hab : a = b := (List.getElem?_inj (List.getElem?_eq_some_iff.1 a1).1 nd).1 (by rw [a1, b1])
      subst hab
      rw [a2] at b2
      exact Option.some.inj b2
    rw [← this, f2]
  obtain ⟨hpv, hpo, hpt⟩ : ∃ h', Of E l h' ∧ E.m0.target h' = src E.m0 h := ⟨hm, he⟩
  have hne0 : src E.m0 h ≠ E.m0.target h := flip.2.1
  -- finishing, once the end is known
  have finish : ∀ (m' : Mesh P) (og : Option Nat) (w : Nat) (pl' : Nat → Option Nat), endOf E s k first h n last = some (m', og, w) → VInv d E m1 mS k m' pl' → Grown s.m m' →
      (∀ v w, pl v = some w → pl' v = some w) → (∀ v w, pl' v = some w → pl v = some w ∨ v = E.m0.target h) →
      (∀ g, og = some g → Img E X m' pl' h g) → (og = none → Over E X pl' (E.m0.target h) w) →
      ∃ s' g pl', visit E k first (s, acc) (h, n, last) = some (s', acc ++ [g]) ∧ Inv d E m1 mS k l X D s' pl' ∧ Later k s s' pl pl' ∧ Img E X s'.m pl' h g ∧ (s'.inst k h).isSome := by
    intro m' og w pl' e1 V g1 hpl hnew hsome hnone
    have step : ∃ m'' g, (og.elim (halfOf m' (s.m.target (acc.getLastD 0)) w) (fun g => (m', g))) = (m'', g) ∧ VInv d E m1 mS k m'' pl' ∧ Grown m' m'' ∧ Img E X m'' pl' h g := by
      cases og with
      | some g => exact ⟨m', g, rfl, V, Grown.refl _, hsome g rfl⟩
      | none =>
        have ow := hnone rfl
        have oa := ha.mono hpl
        rw [← hpt] at oa
        obtain ⟨m'', g, f1, f2, f3, f4, f5, f6, f7, f8⟩ := halfOf_spec V.plain V.single (oa.lt S V hpo) (ow.lt S V hh)
          (fun e => hne0 (by rw [← hpt]; exact S.ne V hS hpo hh oa ow e))
        refine ⟨m'', g, f1, ⟨f2, f3, V.grown1.trans f4, V.grownS.trans f4, ?_, V.same, V.fresh, V.inj⟩, f4, f6, ?_, ?_⟩
        · intro v w hv
          obtain ⟨b1, b2, b3⟩ := V.old v w hv
          exact ⟨b1, by omega, by rw [f4.pos w b2]; exact b3⟩
        · rw [f7, ← hpt]; exact oa
        · rw [f8]; exact ow
    obtain ⟨m'', g, s1, s2, s3, s4⟩ := step
    have hv : visit E k first (s, acc) (h, n, last) =
        some ({ s with m := m'', inst := if (s.inst k h).isSome then s.inst else upd s.inst k (upd (s.inst k) h (some g)) }, acc ++ [g]) := by
      unfold visit
      simp only [e1, Option.map_some, s1]
    refine ⟨_, g, pl', hv, ⟨s2, ?_, ?_⟩, ⟨g1.trans s3, hpl, ?_, ?_, rfl, rfl, rfl⟩, s4, ?_⟩
    · intro h' g' hg'
      have old : s.inst k h' = some g' → (∃ j ∈ l, D j ∧ ∃ p, E.two.polys[j]? = some p ∧ h' ∈ p) ∧ Img E X m'' pl' h' g' := by
        intro hg
        obtain ⟨b1, b2⟩ := I.inst h' g' hg
        exact ⟨b1, b2.mono (g1.trans s3) hpl⟩
      dsimp only at hg'
      split at hg'
      · exact old hg'
      · simp only [upd, if_true] at hg'
        split at hg'
        · rename_i e; subst e
          obtain rfl := Option.some.inj hg'
          exact ⟨⟨j, hj, hD, p, hp, hf.mem.1⟩, s4⟩
        · exact old hg'
    · intro hc v w hv
      have here : ∃ g', (if (s.inst k h).isSome then s.inst else upd s.inst k (upd (s.inst k) h (some g))) k h = some g' := by
        split
        · rename_i c; exact Option.isSome_iff_exists.1 c
        · exact ⟨g, by simp [upd]⟩
      rcases hnew v w hv with h1 | h1
      · obtain ⟨x, x1, x2, x3⟩ := I.seen hc v w h1
        refine ⟨x, x1, x2, ?_⟩
        dsimp only
        split
        · exact x3
        · simp only [upd, if_true]
          split
          · rfl
          · exact x3
      · exact ⟨h, hl, h1.symm, Option.isSome_iff_exists.2 here⟩
    · intro i hi
      dsimp only
      split
      · rfl
      · simp only [upd, if_neg hi]
    · intro h' g' hg'
      dsimp only
      split
      · exact hg'
      · rename_i c
        simp only [upd, if_true]
        split
        · rename_i e; rw [← e, hg'] at c; exact absurd rfl c
        · exact hg'
    · dsimp only
      split
      · rename_i c; exact c
      · simp [upd]
  -- a halfedge on the cut
  have onCut : ∀ {g}, atCut E h = some g → h < numCut → Img E X s.m pl h g := by
    intro g hg hc
    obtain ⟨g', g1, g2, g3, g4⟩ := S.glue h hh hc
    rw [hg] at g1
    obtain rfl := Option.some.inj g1
    obtain ⟨c1, c2⟩ := (S.cutEnds h hh).1 hc
    have e := I.v.grown1.ends g g2
    have := I.v.grown1.nE
    refine ⟨by omega, ?_, ?_⟩ <;> unfold Over
    · rw [if_neg (by omega), e.1, g3]
    · rw [if_neg (by omega), e.2, g4]
  have btw : between E h = true ↔ h < numCut := by
    rw [S.cutEnds h hh]
    unfold between
    simp
  cases hlst : last with
  | true =>
    subst hlst
    have oe := hlast rfl
    by_cases hc : h < numCut
    · obtain ⟨g, g1, -⟩ := S.glue h hh hc
      refine finish s.m (some g) (src s.m first) pl ?_ I.v (Grown.refl _) (fun _ _ h => h) (fun _ _ h => .inl h) (fun g' e => ?_) (fun e => by cases e)
      · unfold endOf
        rw [if_pos rfl, if_pos (btw.2 hc), S.cutKind h hh hc]
        simp only [Option.bind_some, if_true, g1, Option.map_some]
      · obtain rfl := Option.some.inj e; exact onCut g1 hc
    · refine finish s.m none (src s.m first) pl ?_ I.v (Grown.refl _) (fun _ _ h => h) (fun _ _ h => .inl h) (fun g' e => by cases e) (fun _ => oe)
      unfold endOf
      rw [if_pos rfl, if_neg (fun h' => hc (btw.1 h'))]
  | false =>
    subst hlst
    by_cases c1 : src E.m0 h < E.base ∧ E.base ≤ E.m0.target h
    · have hov : ∀ w, w = X (E.m0.target h) → Over E X pl (E.m0.target h) w := by
        intro w e
        unfold Over; rw [if_neg (by omega)]; exact e
      cases hi : s.inst k (opposite h) with
      | some g =>
        refine finish s.m none (src s.m g) pl ?_ I.v (Grown.refl _) (fun _ _ h => h) (fun _ _ h => .inl h) (fun g' e => by cases e) (fun _ => ?_)
        · unfold endOf
          rw [if_neg (by simp), if_pos c1, hi]
        · have := (I.inst _ _ hi).2.2.1
          rw [flip.2.2.1] at this
          exact this
      | none =>
        have hnc := S.ahead j hj p hp h n hf c1.1 c1.2
        have hno : Of E l n := ⟨j, hj, p, hp, hf.mem.2⟩
        obtain ⟨g, g1, g2, g3, g4⟩ := S.glue n hno hnc
        refine finish s.m none (src s.m g) pl ?_ I.v (Grown.refl _) (fun _ _ h => h) (fun _ _ h => .inl h) (fun g' e => by cases e) (fun _ => ?_)
        · unfold endOf
          rw [if_neg (by simp), if_pos c1, hi]
          simp only [g1, Option.map_some]
        · apply hov
          rw [(I.v.grown1.ends g g2).1, g3, hnx]
    · by_cases hc : h < numCut
      · obtain ⟨g, g1, -⟩ := S.glue h hh hc
        refine finish s.m (some g) (s.m.target g) pl ?_ I.v (Grown.refl _) (fun _ _ h => h) (fun _ _ h => .inl h) (fun g' e => ?_) (fun e => by cases e)
        · unfold endOf
          rw [if_neg (by simp), if_neg c1, if_pos (btw.2 hc), S.cutKind h hh hc]
          simp only [Option.bind_some, if_true, g1, Option.map_some]
        · obtain rfl := Option.some.inj e; exact onCut g1 hc
      · have ht : E.m0.target h < E.base := by
          have := S.cutEnds h hh
          by_contra hcon
          apply hc
          rw [this]
          omega
        obtain ⟨m', w, pl', o1, o2, o3, o4, o5, o6⟩ := originalEnd_spec S I hh hnx ht
        refine finish m' none w pl' ?_ o2 o3 o4 o6 (fun g' e => by cases e) (fun _ => ?_)
        · unfold endOf
          rw [if_neg (by simp), if_neg c1, if_neg (fun h' => hc (btw.1 h')), o1]
        · unfold Over; rw [if_pos ht]; exact o5

end Mcut.Stitch
