import Verif.Lemmas.C83Poly
import Verif.Lemmas.C79Cut
import Mathlib.Data.List.Perm.Subperm

/-! Lemmas for C83: all polygons of a patch. -/
namespace Mcut.Stitch
open Mcut.Hmesh Mcut.Extract
open Mcut.Split (Plain edgeOf_opposite opposite_opposite opposite_ne)
open Mcut.Trace (src src_of Round Follows)
variable {P : Type} {d : P} {E : Env P} {m1 mS : Mesh P} {k numCut : Nat} {l : List Nat} {X : Nat → Nat} {D : Nat → Prop} {s : St P} {pl : Nat → Option Nat}

theorem Inv.mono {D' : Nat → Prop} (I : Inv d E m1 mS k l X D s pl) (h : ∀ i, D i → D' i) : Inv d E m1 mS k l X D' s pl :=
  ⟨I.v, fun x g hg => by
    obtain ⟨⟨j, j1, j2, j3⟩, b⟩ := I.inst x g hg
    exact ⟨⟨j, j1, h j j2, j3⟩, b⟩, I.seen⟩

theorem Img.flip {m : Mesh P} (p : Plain d m) (hr : Reachable d E.m0) {h g : Nat} (hl : LiveH E.m0 h) (i : Img E X m pl h g) : Img E X m pl (opposite h) (opposite g) := by
  obtain ⟨i1, i2, i3⟩ := i
  have a := p.ends i1
  have b := src_of hr hl
  refine ⟨by rw [edgeOf_opposite]; exact i1, ?_, ?_⟩
  · rw [a.2.2.1, b.2.2.1]; exact i3
  · rw [← a.1, ← b.1]; exact i2

/-- A polygon that waits. `D` are the polygons that have been stitched. -/
def JobOK (E : Env P) (X : Nat → Nat) (numCut : Nat) (l : List Nat) (D : Nat → Prop) (m : Mesh P) (pl : Nat → Option Nat) (j : Job) : Prop :=
  j.poly ∈ l ∧ ∃ p h, E.two.polys[j.poly]? = some p ∧ p[j.index]? = some h ∧ Img E X m pl h j.first ∧ (h < numCut ∨ ∃ i ∈ l, D i ∧ ∃ q, E.two.polys[i]? = some q ∧ opposite h ∈ q)

theorem JobOK.mono {D D' : Nat → Prop} {m m' : Mesh P} {pl pl' : Nat → Option Nat} (g : Grown m m') (hp : ∀ v w, pl v = some w → pl' v = some w) (hD : ∀ i, D i → D' i) {j : Job}
    (h : JobOK E X numCut l D m pl j) : JobOK E X numCut l D' m' pl' j := by
  obtain ⟨h1, p, x, h2, h3, h4, h5⟩ := h
  refine ⟨h1, p, x, h2, h3, h4.mono g hp, ?_⟩
  rcases h5 with h5 | ⟨i, i1, i2, i3⟩
  · exact .inl h5
  · exact .inr ⟨i, i1, hD i i2, i3⟩

/-- The neighbours of the halfedges `done` are in the queue. -/
structure Looked (E : Env P) (X : Nat → Nat) (numCut : Nat) (l : List Nat) (D : Nat → Prop) (m : Mesh P) (pl : Nat → Option Nat) (Q0 : List Nat) (C : Nat × Nat → Prop) (done : List Nat)
    (q : List Job × List Nat × List (Nat × Nat)) : Prop where
  queued : q.2.1 = Q0 ++ q.1.map Job.poly
  nodup : q.2.1.Nodup
  ok : ∀ j ∈ q.1, JobOK E X numCut l D m pl j
  closed : ∀ x ∈ done, numCut ≤ x → ∀ i ∈ l, ∀ p, E.two.polys[i]? = some p → opposite x ∈ p → i ∈ q.2.1
  entries : ∀ e ∈ q.2.2, C e ∨ pl e.2 = some e.1

theorem look_spec (S : Sheet d E m1 k numCut l X) (I : Inv d E m1 mS k l X D s pl) {j : Nat} {p done : List Nat} {h h0 : Nat} {Q0 : List Nat} {C : Nat × Nat → Prop} (hj : j ∈ l) (hD : D j)
    (hp : E.two.polys[j]? = some p) (hh : h ∈ p) (hQ : ∀ i, D i → i ∈ Q0) (h0ok : h0 < numCut ∨ ∃ i ∈ l, D i ∧ ∃ q, E.two.polys[i]? = some q ∧ opposite h0 ∈ q)
    (rec' : ∀ h ∈ p, h ≠ h0 → (s.inst k h).isSome) {q : List Job × List Nat × List (Nat × Nat)} (L : Looked E X numCut l D s.m pl Q0 C done q) :
    ∃ q', look E k h0 s q h = some q' ∧ Looked E X numCut l D s.m pl Q0 C (done ++ [h]) q' := by
  have hof : Of E l h := ⟨j, hj, p, hp, hh⟩
  have hl := S.live hof
  have same : ∀ {q' : List Job × List Nat × List (Nat × Nat)}, q' = q → (numCut ≤ h → ∀ i ∈ l, ∀ p, E.two.polys[i]? = some p → opposite h ∈ p → i ∈ q.2.1) → Looked E X numCut l D s.m pl Q0 C (done ++ [h]) q' := by
    rintro _ rfl hc
    refine ⟨L.queued, L.nodup, L.ok, ?_, L.entries⟩
    intro x hx
    rcases List.mem_append.1 hx with hx | hx
    · exact L.closed x hx
    · rw [List.mem_singleton] at hx; subst hx; exact hc
  have inQ : ∀ i, D i → i ∈ q.2.1 := fun i hi => by rw [L.queued]; exact List.mem_append_left _ (hQ i hi)
  unfold look
  by_cases e0 : h = h0
  · rw [if_pos e0]
    refine ⟨q, rfl, same rfl ?_⟩
    intro hc i hi p' hp' hop
    rcases h0ok with h1 | ⟨i', i1, i2, q', q1, q2⟩
    · omega
    · have := S.once i hi i' i1 p' q' (opposite h) hp' q1 hop (by rw [e0]; exact q2)
      rw [this]; exact inQ i' i2
  · rw [if_neg e0]
    have btw : between E h = true ↔ h < numCut := by
      rw [S.cutEnds h hof]
      unfold between
      simp
    by_cases hc : h < numCut
    · rw [if_pos (btw.2 hc), S.cutKind h hof hc]
      refine ⟨q, by simp, same rfl (fun h' => by omega)⟩
    · rw [if_neg (fun h' => hc (btw.1 h'))]
      simp only [Option.bind_some, Bool.false_or]
      by_cases hi : (s.inst k (opposite h)).isSome = true
      · rw [if_pos hi]
        refine ⟨q, rfl, same rfl ?_⟩
        intro _ i hi' p' hp' hop
        obtain ⟨g, hg⟩ := Option.isSome_iff_exists.1 hi
        obtain ⟨⟨i', i1, i2, q', q1, q2⟩, -⟩ := I.inst _ _ hg
        have := S.once i hi' i' i1 p' q' (opposite h) hp' q1 hop q2
        rw [this]; exact inQ i' i2
      · rw [if_neg hi]
        obtain ⟨g, hg⟩ := Option.isSome_iff_exists.1 (rec' h hh e0)
        obtain ⟨u, u1, u2⟩ := S.user h (by omega) hof
        rw [hg, Option.bind_some, u1, Option.bind_some]
        cases u with
        | none =>
          refine ⟨q, rfl, same rfl ?_⟩
          intro _ i hi' p' hp' hop
          have := (u2 i).2 ⟨hi', p', hp', hop⟩
          cases this
        | some i =>
          obtain ⟨i1, p', i2, i3⟩ := (u2 i).1 rfl
          dsimp only
          rw [i2, Option.bind_some]
          have im := (I.inst h g hg).2
          have cl : ∀ i' ∈ l, ∀ p', E.two.polys[i']? = some p' → opposite h ∈ p' → i' = i := fun i' a b c e => S.once i' a i i1 b p' _ c i2 e i3
          -- the queue
          have hq1 : ∃ q1, (if q.2.1.contains i then q else (q.1 ++ [(⟨opposite g, i, (p'.takeWhile (fun x => x != opposite h)).length⟩ : Job)], q.2.1 ++ [i], q.2.2)) = q1 ∧
              Looked E X numCut l D s.m pl Q0 C (done ++ [h]) q1 := by
            by_cases hcon : q.2.1.contains i = true
            · rw [if_pos hcon]
              refine ⟨q, rfl, same rfl ?_⟩
              intro _ i' a b c e
              rw [cl i' a b c e]
              simpa using hcon
            · rw [if_neg hcon]
              have hni : i ∉ q.2.1 := by simpa using hcon
              refine ⟨_, rfl, ?_, ?_, ?_, ?_, L.entries⟩
              · show q.2.1 ++ [i] = _
                rw [L.queued]; simp
              · show (q.2.1 ++ [i]).Nodup
                rw [List.nodup_append]
                refine ⟨L.nodup, by simp, ?_⟩
                intro a ha b hb e
                rw [List.mem_singleton] at hb
                exact hni (by rw [← hb, ← e]; exact ha)
              · intro x hx
                rcases List.mem_append.1 hx with hx | hx
                · exact L.ok x hx
                · rw [List.mem_singleton] at hx; subst hx
                  refine ⟨i1, p', opposite h, i2, Patches.takeWhile_place i3, im.flip I.v.plain S.m0ok hl, .inr ⟨j, hj, hD, p, hp, ?_⟩⟩
                  rw [Split.opposite_opposite]; exact hh
              · intro x hx hcx i' a b c e
                show i' ∈ q.2.1 ++ [i]
                rcases List.mem_append.1 hx with hx | hx
                · exact List.mem_append_left _ (L.closed x hx hcx i' a b c e)
                · rw [List.mem_singleton] at hx; subst hx
                  rw [cl i' a b c e]; simp
          obtain ⟨q1, e1, L1⟩ := hq1
          rw [e1]
          split
          · rename_i hcon
            refine ⟨_, rfl, L1.queued, L1.nodup, L1.ok, L1.closed, ?_⟩
            intro e he
            rcases List.mem_append.1 he with he | he
            · exact L1.entries e he
            · rw [List.mem_singleton] at he; subst he
              right
              have := im.2.2
              unfold Over at this
              rw [if_pos hcon.1] at this
              exact this
          · exact ⟨q1, rfl, L1⟩

theorem looks_spec (S : Sheet d E m1 k numCut l X) (I : Inv d E m1 mS k l X D s pl) {j : Nat} {p : List Nat} {h0 : Nat} {Q0 : List Nat} {C : Nat × Nat → Prop} (hj : j ∈ l) (hD : D j)
    (hp : E.two.polys[j]? = some p) (hQ : ∀ i, D i → i ∈ Q0) (h0ok : h0 < numCut ∨ ∃ i ∈ l, D i ∧ ∃ q, E.two.polys[i]? = some q ∧ opposite h0 ∈ q)
    (rec' : ∀ h ∈ p, h ≠ h0 → (s.inst k h).isSome) : ∀ (todo done : List Nat) (q : List Job × List Nat × List (Nat × Nat)), (∀ h ∈ todo, h ∈ p) → Looked E X numCut l D s.m pl Q0 C done q →
    ∃ q', todo.foldlM (look E k h0 s) q = some q' ∧ Looked E X numCut l D s.m pl Q0 C (done ++ todo) q' := by
  intro todo
  induction todo with
  | nil => intro done q _ L; exact ⟨q, rfl, by simpa using L⟩
  | cons h todo ih =>
    intro done q hm L
    obtain ⟨q1, e1, L1⟩ := look_spec S I hj hD hp (hm h List.mem_cons_self) hQ h0ok rec' L
    obtain ⟨q2, e2, L2⟩ := ih (done ++ [h]) q1 (fun x hx => hm x (List.mem_cons_of_mem _ hx)) L1
    refine ⟨q2, ?_, by simpa using L2⟩
    rw [List.foldlM_cons, e1]
    exact e2

/-- New polygon `q` is polygon `j`. -/
def Made (E : Env P) (X : Nat → Nat) (m : Mesh P) (pl : Nat → Option Nat) (j : Nat) (q : List Nat) : Prop :=
  ∃ p i, E.two.polys[j]? = some p ∧ i < p.length ∧ List.Forall₂ (Img E X m pl) (p.rotate i) q

theorem Made.mono {m m' : Mesh P} {pl pl' : Nat → Option Nat} (g : Grown m m') (hp : ∀ v w, pl v = some w → pl' v = some w) {j : Nat} {q : List Nat} (h : Made E X m pl j q) : Made E X m' pl' j q := by
  obtain ⟨p, i, h1, h2, h3⟩ := h
  exact ⟨p, i, h1, h2, h3.imp (fun _ _ a => a.mono g hp)⟩

/-- The state between rounds; `s0` is that before the patch, `done` are the polygons that have been stitched. -/
structure Mid (d : P) (E : Env P) (m1 mS : Mesh P) (k numCut : Nat) (l : List Nat) (X : Nat → Nat) (s0 s : St P) (pl : Nat → Option Nat) (done queued : List Nat) (jobs : List Job) : Prop where
  I : Inv d E m1 mS k l X (· ∈ done) s pl
  nodup : (done ++ jobs.map Job.poly).Nodup
  doneIn : ∀ i ∈ done, i ∈ l
  ok : ∀ j ∈ jobs, JobOK E X numCut l (· ∈ done) s.m pl j
  queuedNodup : queued.Nodup
  queuedIn : ∀ i ∈ queued, i ∈ done ++ jobs.map Job.poly
  doneQueued : ∀ i ∈ done, i ∈ queued
  restQueued : ∀ j ∈ jobs.tail, j.poly ∈ queued
  closed : ∀ i ∈ done, ∀ p, E.two.polys[i]? = some p → ∀ x ∈ p, numCut ≤ x → ∀ j ∈ l, ∀ q, E.two.polys[j]? = some q → opposite x ∈ q → j ∈ done ++ jobs.map Job.poly
  polys : ∃ news, s.polys = s0.polys ++ news ∧ List.Forall₂ (Made E X s.m pl) done news
  faces : s.faces = ((List.range' s0.polys.length done.length).zip done).reverse ++ s0.faces
  entries : ∀ e ∈ s.cmv, e ∈ s0.cmv ∨ pl e.2 = some e.1
  others : ∀ i, i ≠ k → s.inst i = s0.inst i

theorem round_spec (S : Sheet d E m1 k numCut l X) (hS : m1.nV ≤ mS.nV) {s0 : St P} {done queued : List Nat} {j : Job} {jobs : List Job} (M : Mid d E m1 mS k numCut l X s0 s pl done queued (j :: jobs)) :
    ∃ s' pl' new queued', round E k s queued j = some (s', new, queued') ∧ Mid d E m1 mS k numCut l X s0 s' pl' (done ++ [j.poly]) queued' (jobs ++ new) ∧ Grown s.m s'.m := by
  obtain ⟨hj, p, h0, hp, hi, hg, hb⟩ := M.ok j List.mem_cons_self
  have hsub : ∀ i, i ∈ done → i ∈ done ++ [j.poly] := fun i hi => List.mem_append_left _ hi
  have I0 : Inv d E m1 mS k l X (· ∈ done ++ [j.poly]) s pl := M.I.mono hsub
  obtain ⟨s1, pl1, q, v1, v2, v3, v4, v5, v6, v7, v8⟩ := stitchPoly_spec S hS I0 hj (by simp) hp hi hg
  -- the queue
  have hQ : ∃ Q0, (if queued.contains j.poly then queued else queued ++ [j.poly]) = Q0 ∧ Q0.Nodup ∧ (∀ i ∈ Q0, i ∈ done ++ (j :: jobs).map Job.poly) ∧ ∀ i ∈ done ++ (j :: jobs).map Job.poly, i ∈ Q0 := by
    refine ⟨_, rfl, ?_, ?_, ?_⟩
    · split
      · exact M.queuedNodup
      · rename_i hc
        have : j.poly ∉ queued := by simpa using hc
        rw [List.nodup_append]
        refine ⟨M.queuedNodup, by simp, ?_⟩
        intro a ha b hb' e
        rw [List.mem_singleton] at hb'
        exact this (by rw [← hb', ← e]; exact ha)
    · intro i hi'
      split at hi'
      · exact M.queuedIn i hi'
      · rcases List.mem_append.1 hi' with h | h
        · exact M.queuedIn i h
        · rw [List.mem_singleton] at h; rw [h]; simp
    · have hin : ∀ i, i ∈ queued ∨ i = j.poly → i ∈ (if queued.contains j.poly then queued else queued ++ [j.poly]) := by
        intro i hi'
        split
        · rename_i hc
          have hc' : j.poly ∈ queued := by simpa using hc
          rcases hi' with h | h
          · exact h
          · rw [h]; exact hc'
        · rcases hi' with h | h
          · exact List.mem_append_left _ h
          · rw [h]; simp
      intro i hi'
      apply hin
      rcases List.mem_append.1 hi' with h | h
      · exact .inl (M.doneQueued i h)
      · rw [List.map_cons, List.mem_cons] at h
        rcases h with h | h
        · exact .inr h
        · obtain ⟨x, x1, x2⟩ := List.mem_map.1 h
          exact .inl (by rw [← x2]; exact M.restQueued x x1)
  obtain ⟨Q0, eQ, q1, q2, q3⟩ := hQ
  have L0 : Looked E X numCut l (· ∈ done ++ [j.poly]) s1.m pl1 Q0 (fun e => e ∈ s0.cmv) [] ([], Q0, s1.cmv) := by
    refine ⟨by simp, q1, by simp, by simp, ?_⟩
    intro e he
    rw [v6] at he
    rcases M.entries e he with h | h
    · exact .inl h
    · exact .inr (v3.pl _ _ h)
  obtain ⟨⟨new, queued', cmv'⟩, e2, L⟩ := looks_spec (h0 := h0) S v2 hj (by simp) hp (fun i hi => q3 i (by
      rcases List.mem_append.1 hi with h | h
      · exact List.mem_append_left _ h
      · rw [List.mem_singleton] at h; rw [h]; simp)) (by
      rcases hb with h | ⟨i, i1, i2, i3⟩
      · exact .inl h
      · exact .inr ⟨i, i1, hsub i i2, i3⟩) v8 p [] ([], Q0, s1.cmv) (fun h hh => hh) L0
  rw [List.nil_append] at L
  have hLq : queued' = Q0 ++ new.map Job.poly := L.queued
  refine ⟨{ s1 with cmv := cmv' }, pl1, new, queued', ?_, ?_, v3.grown⟩
  · unfold round
    rw [v1, Option.bind_some, hp, Option.bind_some, hi, Option.bind_some, eQ, e2]
    rfl
  · have lists : (done ++ [j.poly]) ++ (jobs ++ new).map Job.poly = (done ++ (j :: jobs).map Job.poly) ++ new.map Job.poly := by simp
    have qnd : queued'.Nodup := L.nodup
    have mem_iff : ∀ i, i ∈ queued' ↔ i ∈ (done ++ (j :: jobs).map Job.poly) ++ new.map Job.poly := by
      intro i
      rw [hLq, List.mem_append, List.mem_append (s := done ++ (j :: jobs).map Job.poly)]
      exact or_congr ⟨q2 i, q3 i⟩ Iff.rfl
    refine ⟨⟨v2.v, v2.inst, v2.seen⟩, ?_, ?_, ?_, qnd, ?_, ?_, ?_, ?_, ?_, ?_, L.entries, ?_⟩
    · rw [lists, List.nodup_append]
      rw [hLq, List.nodup_append] at qnd
      exact ⟨M.nodup, qnd.2.1, fun a ha b hb' => qnd.2.2 a (q3 a ha) b hb'⟩
    · intro i hi'
      rcases List.mem_append.1 hi' with h | h
      · exact M.doneIn i h
      · rw [List.mem_singleton] at h; rw [h]; exact hj
    · intro x hx
      rcases List.mem_append.1 hx with h | h
      · exact (M.ok x (List.mem_cons_of_mem _ h)).mono v3.grown v3.pl hsub
      · exact L.ok x h
    · intro i hi'; rw [lists]; exact (mem_iff i).1 hi'
    · intro i hi'
      rw [mem_iff]
      apply List.mem_append_left
      rcases List.mem_append.1 hi' with h | h
      · exact List.mem_append_left _ h
      · rw [List.mem_singleton] at h; rw [h]; simp
    · intro x hx
      rw [mem_iff]
      have := List.mem_of_mem_tail hx
      rcases List.mem_append.1 this with h | h
      · apply List.mem_append_left
        apply List.mem_append_right
        rw [List.map_cons]
        exact List.mem_cons_of_mem _ (List.mem_map_of_mem h)
      · exact List.mem_append_right _ (List.mem_map_of_mem h)
    · intro i hi' p' hp' x hx hc i' hi'' q' hq' hop
      rw [lists]
      rcases List.mem_append.1 hi' with h | h
      · exact List.mem_append_left _ (M.closed i h p' hp' x hx hc i' hi'' q' hq' hop)
      · rw [List.mem_singleton] at h; subst h
        rw [hp] at hp'
        obtain rfl := Option.some.inj hp'
        exact (mem_iff i').1 (L.closed x hx hc i' hi'' q' hq' hop)
    · obtain ⟨news, n1, n2⟩ := M.polys
      refine ⟨news ++ [q], ?_, List.rel_append (n2.imp (fun _ _ h => h.mono v3.grown v3.pl)) (.cons ⟨p, j.index, hp, (List.getElem?_eq_some_iff.1 hi).1, v7⟩ .nil)⟩
      show s1.polys = _
      rw [v4, n1, List.append_assoc]
    · obtain ⟨news, n1, n2⟩ := M.polys
      show s1.faces = _
      rw [v5, M.faces, n1, List.length_append, ← n2.length_eq, List.length_append, List.length_singleton, List.range'_concat]
      rw [List.zip_append (by simp)]
      simp
    · intro i hi'
      show s1.inst i = _
      rw [v3.others i hi', M.others i hi']

theorem rounds_spec (S : Sheet d E m1 k numCut l X) (hS : m1.nV ≤ mS.nV) {s0 : St P} : ∀ (f : Nat) (s : St P) (pl : Nat → Option Nat) (done queued : List Nat) (jobs : List Job),
    Mid d E m1 mS k numCut l X s0 s pl done queued jobs → l.length ≤ done.length + f →
    ∃ s' pl' done' queued', rounds E k f s queued jobs = some s' ∧ Mid d E m1 mS k numCut l X s0 s' pl' done' queued' [] ∧ Grown s.m s'.m ∧ (∀ i ∈ done ++ jobs.map Job.poly, i ∈ done') := by
  have bound : ∀ {s pl done queued jobs}, Mid d E m1 mS k numCut l X s0 s pl done queued jobs → done.length + jobs.length ≤ l.length := by
    intro s pl done queued jobs M
    have := (M.nodup.subperm (fun i hi => by
      rcases List.mem_append.1 hi with h | h
      · exact M.doneIn i h
      · obtain ⟨x, x1, x2⟩ := List.mem_map.1 h
        rw [← x2]; exact (M.ok x x1).1)).length_le
    simpa using this
  intro f
  induction f with
  | zero =>
    intro s pl done queued jobs M hf
    have := bound M
    have hz : jobs = [] := List.eq_nil_of_length_eq_zero (by omega)
    subst hz
    refine ⟨s, pl, done, queued, by unfold rounds; rfl, M, Grown.refl _, by simp⟩
  | succ f ih =>
    intro s pl done queued jobs M hf
    cases jobs with
    | nil => exact ⟨s, pl, done, queued, by unfold rounds; rfl, M, Grown.refl _, by simp⟩
    | cons j jobs =>
      obtain ⟨s1, pl1, new, queued1, e1, M1, g1⟩ := round_spec S hS M
      obtain ⟨s', pl', done', queued', e2, M2, g2, sub⟩ := ih s1 pl1 (done ++ [j.poly]) queued1 (jobs ++ new) M1 (by rw [List.length_append]; simp; omega)
      refine ⟨s', pl', done', queued', ?_, M2, g1.trans g2, ?_⟩
      · unfold rounds
        rw [e1]
        exact e2
      · intro i hi
        apply sub
        simp only [List.map_cons, List.mem_append, List.mem_cons, List.map_append, List.mem_singleton] at hi ⊢
        tauto

end Mcut.Stitch
