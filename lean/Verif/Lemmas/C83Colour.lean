import Verif.Lemmas.C83Rounds
import Verif.Lemmas.C81Rev

/-! Lemmas for C83: all patches of a colour. -/
namespace Mcut.Stitch
open Mcut.Hmesh Mcut.Extract
open Mcut.Split (Plain edgeOf_opposite opposite_ne sameFace)
open Mcut.Trace (src src_of Round Follows)
variable {P : Type} {d : P} {E : Env P} {m1 mS : Mesh P} {k numCut : Nat} {l : List Nat} {X : Nat → Nat} {D : Nat → Prop} {s : St P} {pl : Nat → Option Nat}

/-- From one of the polygons one gets to all of them, without crossing the cut. -/
def Joined (E : Env P) (numCut : Nat) (l : List Nat) : Prop :=
  ∀ A : Nat → Prop, (∃ i ∈ l, A i) → (∀ i ∈ l, A i → ∀ p, E.two.polys[i]? = some p → ∀ x ∈ p, numCut ≤ x → ∀ j ∈ l, ∀ q, E.two.polys[j]? = some q → opposite x ∈ q → A j) → ∀ i ∈ l, A i

/-- Where the patch is begun. -/
def Begun (E : Env P) (starts : List (Nat × Nat)) (numCut k : Nat) (l : List Nat) : Prop :=
  ∃ x p h, starts[k]? = some x ∧ x.1 ∈ l ∧ E.two.polys[x.1]? = some p ∧ p[x.2]? = some h ∧ h < numCut

/-- One patch. -/
theorem stitchPatch_spec (S : Sheet d E m1 k numCut l X) (J : Joined E numCut l) {starts : List (Nat × Nat)} (B : Begun E starts numCut k l) {s0 : St P} (p0 : Plain d s0.m) (g0 : Single s0.m)
    (w0 : Grown m1 s0.m) (i0 : ∀ h, s0.inst k h = none) :
    ∃ s pl done, stitchPatch E starts s0 k = some s ∧ done.Perm l ∧ VInv d E m1 s0.m k s.m pl ∧ (∃ news, s.polys = s0.polys ++ news ∧ List.Forall₂ (Made E X s.m pl) done news) ∧
      s.faces = ((List.range' s0.polys.length done.length).zip done).reverse ++ s0.faces ∧ (∀ e ∈ s.cmv, e ∈ s0.cmv ∨ pl e.2 = some e.1) ∧ ∀ i, i ≠ k → s.inst i = s0.inst i := by
  obtain ⟨x, p, h, hx, hxl, hp, hh, hc⟩ := B
  have hof : Of E l h := ⟨x.1, hxl, p, hp, List.mem_of_getElem? hh⟩
  obtain ⟨g, g1, g2, g3, g4⟩ := S.glue h hof hc
  obtain ⟨c1, c2⟩ := (S.cutEnds h hof).1 hc
  have hb := S.base
  have hnv := w0.nV
  have hne := w0.nE
  -- the start
  let pl0 : Nat → Option Nat := if k % E.ccw = k then (fun v => if v < E.base then some v else none) else fun _ => none
  have V0 : VInv d E m1 s0.m k s0.m pl0 := by
    have cases0 : ∀ v w, pl0 v = some w → k % E.ccw = k ∧ v < E.base ∧ w = v := by
      intro v w hv
      simp only [pl0] at hv
      split at hv
      · rename_i hk
        dsimp only at hv
        split at hv
        · rename_i hv'; exact ⟨hk, hv', (Option.some.inj hv).symm⟩
        · cases hv
      · cases hv
    refine ⟨p0, g0, w0, Grown.refl _, ?_, fun hk => by simp only [pl0, if_pos hk], ?_, ?_⟩
    · intro v w hv
      obtain ⟨h1, h2, rfl⟩ := cases0 v w hv
      exact ⟨h2, by omega, by rw [w0.pos w (by omega), S.place w h2]⟩
    · intro hk v w hv; exact absurd (cases0 v w hv).1 hk
    · intro v v' w hv hv'
      rw [← (cases0 v w hv).2.2, ← (cases0 v' w hv').2.2]
  have M0 : Mid d E m1 s0.m k numCut l X s0 s0 pl0 [] [] [⟨g, x.1, x.2⟩] := by
    refine ⟨⟨V0, fun y g' e => (by rw [i0] at e; cases e), ?_⟩, by simp, by simp, ?_, by simp, by simp, by simp, by simp, by simp, ⟨[], by simp, .nil⟩, by simp, fun e he => .inl he, fun _ _ => rfl⟩
    · intro hk v w hv
      simp only [pl0, if_neg hk] at hv
      cases hv
    · intro j hj
      rw [List.mem_singleton] at hj
      subst hj
      refine ⟨hxl, p, h, hp, hh, ⟨by show edgeOf g < _; omega, ?_, ?_⟩, .inl hc⟩ <;> unfold Over
      · rw [if_neg (by omega), (w0.ends g g2).1, g3]
      · rw [if_neg (by omega), (w0.ends g g2).2, g4]
  have hlen : l.length ≤ E.two.polys.length := by
    have := (S.nodup.subperm (l₂ := List.range E.two.polys.length) (fun i hi => by
      obtain ⟨p', hp', -⟩ := S.poly i hi
      exact List.mem_range.2 (List.getElem?_eq_some_iff.1 hp').1)).length_le
    simpa using this
  obtain ⟨s, pl, done, queued, e, M, gr, sub⟩ := rounds_spec S w0.nV E.two.polys.length s0 pl0 [] [] [⟨g, x.1, x.2⟩] M0 (by simpa using hlen)
  refine ⟨s, pl, done, ?_, ?_, M.I.v, M.polys, M.faces, M.entries, M.others⟩
  · unfold stitchPatch
    rw [hx, Option.bind_some, hp, Option.bind_some, hh, Option.bind_some, g1, Option.bind_some]
    exact e
  · have hall := J (· ∈ done) ⟨x.1, hxl, sub x.1 (by simp)⟩ (fun i hi hd p' hp' y hy hc' j hj q hq hop => by simpa using M.closed i hd p' hp' y hy hc' j hj q hq hop)
    refine (List.perm_ext_iff_of_nodup (by simpa using M.nodup) S.nodup).2 (fun i => ⟨M.doneIn i, hall i⟩)

/-- The patches `ks` have been stitched; `work` are the polygons, with the numbers of their patches. -/
structure Stitched (d : P) (E : Env P) (m1 : Mesh P) (polys1 : List (List Nat)) (sheet : Nat → List Nat) (X : Nat → Nat → Nat) (ks : List Nat) (s : St P) (pl : Nat → Nat → Option Nat) (work : List (Nat × Nat)) : Prop where
  plain : Plain d s.m
  single : Single s.m
  grown : Grown m1 s.m
  old : ∀ k ∈ ks, ∀ v w, pl k v = some w → v < E.base ∧ w < s.m.nV ∧ s.m.pos w = E.m0.pos v
  same : ∀ k ∈ ks, k % E.ccw = k → pl k = fun v => if v < E.base then some v else none
  fresh : ∀ k ∈ ks, k % E.ccw ≠ k → ∀ v w, pl k v = some w → m1.nV ≤ w
  inj : ∀ k ∈ ks, ∀ k' ∈ ks, k % E.ccw ≠ k → k' % E.ccw ≠ k' → ∀ v v' w, pl k v = some w → pl k' v' = some w → k = k' ∧ v = v'
  all : work.Perm (ks.flatMap (fun k => (sheet k).map (fun j => (k, j))))
  polys : ∃ news, s.polys = polys1 ++ news ∧ List.Forall₂ (fun x q => Made E (X x.1) s.m (pl x.1) x.2 q) work news
  faces : s.faces = ((List.range' polys1.length work.length).zip (work.map Prod.snd)).reverse ++ sameFace polys1.length
  entries : ∀ e ∈ s.cmv, ∃ k ∈ ks, pl k e.2 = some e.1
  free : ∀ k, k ∉ ks → ∀ h, s.inst k h = none

theorem stitchColour_spec {sheet : Nat → List Nat} {X : Nat → Nat → Nat} {starts : List (Nat × Nat)} {polys1 : List (List Nat)} (p1 : Plain d m1) (g1 : Single m1) : ∀ (todo ks : List Nat) (s : St P) (pl : Nat → Nat → Option Nat) (work : List (Nat × Nat)),
    Stitched d E m1 polys1 sheet X ks s pl work → (ks ++ todo).Nodup → (∀ k ∈ todo, Sheet d E m1 k numCut (sheet k) (X k) ∧ Joined E numCut (sheet k) ∧ Begun E starts numCut k (sheet k)) →
    ∃ s' pl' work', todo.foldlM (stitchPatch E starts) s = some s' ∧ Stitched d E m1 polys1 sheet X (ks ++ todo) s' pl' work' := by
  intro todo
  induction todo with
  | nil => intro ks s pl work T _ _; exact ⟨s, pl, work, rfl, by simpa using T⟩
  | cons k todo ih =>
    intro ks s pl work T hnd hs
    obtain ⟨S, J, B⟩ := hs k List.mem_cons_self
    have hk : k ∉ ks := by
      rw [List.nodup_append] at hnd
      exact fun h => hnd.2.2 k h k List.mem_cons_self rfl
    obtain ⟨s', plk, done, e, hperm, V, ⟨news, n1, n2⟩, hfaces, hent, hoth⟩ := stitchPatch_spec S J B T.plain T.single T.grown (T.free k hk)
    have hne : ∀ k' ∈ ks, k' ≠ k := fun k' h e => hk (e ▸ h)
    have updk : ∀ k' ∈ ks, upd pl k plk k' = pl k' := fun k' h => by unfold upd; rw [if_neg (hne k' h)]
    have updk' : upd pl k plk k = plk := by unfold upd; rw [if_pos rfl]
    have hnv := V.grownS.nV
    have hnv1 := T.grown.nV
    have T' : Stitched d E m1 polys1 sheet X (ks ++ [k]) s' (upd pl k plk) (work ++ done.map (fun j => (k, j))) := by
      have split' : ∀ k', k' ∈ ks ++ [k] → k' ∈ ks ∨ k' = k := fun k' h => by
        rcases List.mem_append.1 h with h | h
        · exact .inl h
        · exact .inr (List.mem_singleton.1 h)
      refine ⟨V.plain, V.single, V.grown1, ?_, ?_, ?_, ?_, ?_, ?_, ?_, ?_, ?_⟩
      · intro k' hk' v w hv
        rcases split' k' hk' with h | rfl
        · rw [updk k' h] at hv
          obtain ⟨b1, b2, b3⟩ := T.old k' h v w hv
          exact ⟨b1, by omega, by rw [V.grownS.pos w b2]; exact b3⟩
        · rw [updk'] at hv; exact V.old v w hv
      · intro k' hk' hc
        rcases split' k' hk' with h | rfl
        · rw [updk k' h]; exact T.same k' h hc
        · rw [updk']; exact V.same hc
      · intro k' hk' hc v w hv
        rcases split' k' hk' with h | rfl
        · rw [updk k' h] at hv; exact T.fresh k' h hc v w hv
        · rw [updk'] at hv; have := V.fresh hc v w hv; omega
      · intro k' hk' k'' hk'' hc hc' v v' w hv hv'
        rcases split' k' hk' with h | rfl <;> rcases split' k'' hk'' with h' | rfl
        · rw [updk k' h] at hv; rw [updk k'' h'] at hv'; exact T.inj k' h k'' h' hc hc' v v' w hv hv'
        · rw [updk k' h] at hv; rw [updk'] at hv'
          have := V.fresh hc' v' w hv'
          have := (T.old k' h v w hv).2.1
          omega
        · rw [updk'] at hv; rw [updk k'' h'] at hv'
          have := V.fresh hc v w hv
          have := (T.old k'' h' v' w hv').2.1
          omega
        · rw [updk'] at hv hv'; exact ⟨rfl, V.inj v v' w hv hv'⟩
      · rw [List.flatMap_append]
        refine T.all.append ?_
        simpa using hperm.map (fun j => (k, j))
      · obtain ⟨news0, m1', m2⟩ := T.polys
        refine ⟨news0 ++ news, by rw [n1, m1', List.append_assoc], List.rel_append ?_ ?_⟩
        · have hin : ∀ x ∈ work, x.1 ∈ ks := by
            intro x hx
            obtain ⟨k', k1, k2⟩ := List.mem_flatMap.1 (T.all.mem_iff.1 hx)
            obtain ⟨j, -, rfl⟩ := List.mem_map.1 k2
            exact k1
          refine Patches.forall₂_left m2 (fun x hx q hq => ?_)
          rw [updk x.1 (hin x hx)]
          exact hq.mono V.grownS (fun _ _ h => h)
        · rw [List.forall₂_map_left_iff]
          refine n2.imp (fun j q h => ?_)
          show Made E (X k) s'.m (upd pl k plk k) j q
          rw [updk']; exact h
      · obtain ⟨news0, m1', m2⟩ := T.polys
        rw [hfaces, T.faces, m1', List.length_append, ← m2.length_eq, List.map_append, List.length_append, List.length_map]
        rw [← List.range'_append_1, List.zip_append (by simp), List.reverse_append, List.append_assoc, List.map_map]
        congr 3
        exact (List.map_id' done).symm
      · intro e' he'
        rcases hent e' he' with h | h
        · obtain ⟨k', k1, k2⟩ := T.entries e' h
          exact ⟨k', List.mem_append_left _ k1, by rw [updk k' k1]; exact k2⟩
        · exact ⟨k, by simp, by rw [updk']; exact h⟩
      · intro k' hk' h
        rw [List.mem_append, List.mem_singleton, not_or] at hk'
        rw [hoth k' hk'.2]
        exact T.free k' hk'.1 h
    obtain ⟨s'', pl'', work'', e2, T2⟩ := ih (ks ++ [k]) s' _ _ T' (by simpa using hnd) (fun k' hk' => hs k' (List.mem_cons_of_mem _ hk'))
    refine ⟨s'', pl'', work'', ?_, by simpa using T2⟩
    rw [List.foldlM_cons, e]
    exact e2

theorem stitched_of {sheet : Nat → List Nat} {X : Nat → Nat → Nat} {starts : List (Nat × Nat)} {polys1 : List (List Nat)} (p1 : Plain d m1) (g1 : Single m1) (ks : List Nat) (hnd : ks.Nodup)
    (hs : ∀ k ∈ ks, Sheet d E m1 k numCut (sheet k) (X k) ∧ Joined E numCut (sheet k) ∧ Begun E starts numCut k (sheet k)) :
    ∃ s pl work, stitchColour E starts m1 polys1 ks = some s ∧ Stitched d E m1 polys1 sheet X ks s pl work := by
  have T0 : Stitched d E m1 polys1 sheet X [] (⟨m1, fun _ _ => none, polys1, sameFace polys1.length, []⟩ : St P) (fun _ _ => none) [] :=
    ⟨p1, g1, Grown.refl _, by simp, by simp, by simp, by simp, by simp, ⟨[], by simp, .nil⟩, by simp, by simp, fun _ _ _ => rfl⟩
  obtain ⟨s, pl, work, e, T⟩ := stitchColour_spec p1 g1 ks [] _ _ _ T0 (by simpa using hnd) hs
  exact ⟨s, pl, work, e, by simpa using T⟩

end Mcut.Stitch
