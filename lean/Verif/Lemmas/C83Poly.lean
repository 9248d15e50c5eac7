import Verif.Lemmas.C83Patch
import Mathlib.Data.List.Rotate

/-! Lemmas for C83: the halfedges of one polygon. -/
namespace Mcut.Stitch
open Mcut.Hmesh Mcut.Extract
open Mcut.Split (Plain edgeOf_opposite opposite_opposite opposite_ne)
open Mcut.Trace (src src_of Round Follows)
variable {P : Type} {d : P} {E : Env P} {m1 mS : Mesh P} {k numCut : Nat} {l : List Nat} {X : Nat → Nat} {D : Nat → Prop} {s : St P} {pl : Nat → Option Nat}

theorem follows_rotate {p : List Nat} {i x y : Nat} (h : Follows (p.rotate i) x y) : Follows p x y := by
  obtain ⟨a, h1, h2⟩ := h
  have ha := (List.getElem?_eq_some_iff.1 h1).1
  have hb := (List.getElem?_eq_some_iff.1 h2).1
  rw [List.length_rotate] at ha hb h2
  rw [List.getElem?_rotate ha] at h1
  rw [List.getElem?_rotate hb] at h2
  refine ⟨_, h1, ?_⟩
  rw [← h2]
  congr 1
  simp only [Nat.mod_add_mod]
  congr 1
  omega

theorem Sheet.follows (S : Sheet d E m1 k numCut l X) {j : Nat} {p : List Nat} (hj : j ∈ l) (hp : E.two.polys[j]? = some p) {x y : Nat} (h : Follows p x y) : E.m0.target x = src E.m0 y := by
  obtain ⟨p', hp', R, nd, live⟩ := S.poly j hj
  rw [hp] at hp'
  obtain rfl := Option.some.inj hp'
  obtain ⟨z, f1, f2⟩ := _root_.Mcut.Trace.follows_next R.cyclic h.mem.1
  have : z = y := by
    obtain ⟨a, a1, a2⟩ := f1
    obtain ⟨b, b1, b2⟩ := h
    have hab : a = b := (List.getElem?_inj (List.getElem?_eq_some_iff.1 a1).1 nd).1 (by rw [a1, b1])
    subst hab
    rw [a2] at b2
    exact Option.some.inj b2
  rw [← this, f2]

/-- The halfedges from place `t` on. -/
theorem visits_spec (S : Sheet d E m1 k numCut l X) (hS : m1.nV ≤ mS.nV) {j first i : Nat} {p r : List Nat} (hj : j ∈ l) (hD : D j) (hp : E.two.polys[j]? = some p) (hr : r = p.rotate i) :
    ∀ (c t : Nat) (s : St P) (pl : Nat → Option Nat) (acc : List Nat), t + c = r.length → 0 < t → Inv d E m1 mS k l X D s pl → List.Forall₂ (Img E X s.m pl) (r.take t) acc → acc.head? = some first →
    ∃ s' pl' q, ((List.range' t c).map (fun t => (r.getD t 0, r.getD ((t + 1) % r.length) 0, t + 1 == r.length))).foldlM (visit E k first) (s, acc) = some (s', q) ∧ Inv d E m1 mS k l X D s' pl' ∧
      Later k s s' pl pl' ∧ List.Forall₂ (Img E X s'.m pl') r q ∧ ∀ a h, t ≤ a → r[a]? = some h → (s'.inst k h).isSome := by
  intro c
  induction c with
  | zero =>
    intro t s pl acc ht h0 I hf _
    refine ⟨s, pl, acc, rfl, I, Later.refl k s pl, ?_, ?_⟩
    · rw [List.take_of_length_le (by omega)] at hf; exact hf
    · intro a h h1 h2
      have := (List.getElem?_eq_some_iff.1 h2).1
      omega
  | succ c ih =>
    intro t s pl acc ht h0 I hf hfirst
    have htl : t < r.length := by omega
    have hlen : acc.length = t := by rw [← hf.length_eq, List.length_take]; omega
    have hm : (t + 1) % r.length < r.length := Nat.mod_lt _ (by omega)
    have hp1 : t - 1 < r.length := by omega
    have g0 : r.getD t 0 = r[t] := by simp [List.getD_eq_getElem?_getD, List.getElem?_eq_getElem htl]
    have g1 : r.getD ((t + 1) % r.length) 0 = r[(t + 1) % r.length] := by simp [List.getD_eq_getElem?_getD, List.getElem?_eq_getElem hm]
    have hfo : Follows p r[t] r[(t + 1) % r.length] := by
      apply follows_rotate (i := i)
      rw [← hr]
      exact ⟨t, List.getElem?_eq_getElem htl, List.getElem?_eq_getElem hm⟩
    have hfo' : Follows p r[t - 1] r[t] := by
      apply follows_rotate (i := i)
      rw [← hr]
      refine ⟨t - 1, List.getElem?_eq_getElem hp1, ?_⟩
      rw [show t - 1 + 1 = t from by omega, Nat.mod_eq_of_lt htl]; exact List.getElem?_eq_getElem htl
    have at' : ∀ (a : Nat) (ha : a < t) (ha' : a < acc.length), Img E X s.m pl r[a] acc[a] := by
      intro a ha ha'
      have := (List.forall₂_iff_get.1 hf).2 a (by rw [List.length_take]; omega) ha'
      simpa using this
    have hlastD : acc.getLastD 0 = acc[t - 1] := by
      have : acc[acc.length - 1]? = some acc[t - 1] := by rw [show acc.length - 1 = t - 1 from by omega]; exact List.getElem?_eq_getElem (by omega)
      rw [List.getLastD_eq_getLast?, List.getLast?_eq_getElem?, this]; rfl
    have hfirst' : acc[0]'(by omega) = first := by
      rw [List.head?_eq_getElem?, List.getElem?_eq_getElem (by omega)] at hfirst
      exact Option.some.inj hfirst
    obtain ⟨s1, g, pl1, v1, v2, v3, v4, v5⟩ := visit_spec (acc := acc) (first := first) (last := (t + 1 == r.length)) S hS I hj hD hp hfo
      (by rw [hlastD, ← S.follows hj hp hfo']; exact (at' (t - 1) (by omega) (by omega)).2.2)
      (by
        intro e
        rw [beq_iff_eq] at e
        rw [S.follows hj hp hfo]
        have h00 : r[(t + 1) % r.length] = r[0] := by congr 1; rw [e, Nat.mod_self]
        rw [h00, ← hfirst']
        exact (at' 0 (by omega) (by omega)).2.1)
    have hf1 : List.Forall₂ (Img E X s1.m pl1) (r.take (t + 1)) (acc ++ [g]) := by
      rw [List.take_succ, List.getElem?_eq_getElem htl]
      refine List.rel_append (hf.imp (fun a b h => h.mono v3.grown v3.pl)) ?_
      exact .cons v4 .nil
    obtain ⟨s', pl', q, w1, w2, w3, w4, w5⟩ := ih (t + 1) s1 pl1 (acc ++ [g]) (by omega) (by omega) v2 hf1 (by
      rw [List.head?_append, hfirst]; rfl)
    refine ⟨s', pl', q, ?_, w2, v3.trans w3, w4, ?_⟩
    · rw [List.range'_succ, List.map_cons, List.foldlM_cons]
      rw [g0, g1, v1]
      exact w1
    · intro a h h1 h2
      by_cases hat : a = t
      · subst hat
        rw [List.getElem?_eq_getElem htl] at h2
        obtain rfl := Option.some.inj h2
        obtain ⟨g', hg'⟩ := Option.isSome_iff_exists.1 v5
        exact Option.isSome_iff_exists.2 ⟨g', w3.inst _ _ hg'⟩
      · exact w5 a h (by omega) h2

/-- Like `Later`, but there is a new polygon. -/
structure After (k : Nat) (s s' : St P) (pl pl' : Nat → Option Nat) : Prop where
  grown : Grown s.m s'.m
  pl : ∀ v w, pl v = some w → pl' v = some w
  others : ∀ i, i ≠ k → s'.inst i = s.inst i
  inst : ∀ h g, s.inst k h = some g → s'.inst k h = some g

theorem After.refl (k : Nat) (s : St P) (pl : Nat → Option Nat) : After k s s pl pl := ⟨Grown.refl _, fun _ _ h => h, fun _ _ => rfl, fun _ _ h => h⟩

theorem After.trans {s1 s2 s3 : St P} {p1 p2 p3 : Nat → Option Nat} (a : After k s1 s2 p1 p2) (b : After k s2 s3 p2 p3) : After k s1 s3 p1 p3 :=
  ⟨a.grown.trans b.grown, fun v w h => b.pl v w (a.pl v w h), fun i hi => by rw [b.others i hi, a.others i hi], fun h g e => b.inst h g (a.inst h g e)⟩

/-- One polygon. -/
theorem stitchPoly_spec (S : Sheet d E m1 k numCut l X) (hS : m1.nV ≤ mS.nV) (I : Inv d E m1 mS k l X D s pl) {j : Job} {p : List Nat} {h0 : Nat} (hj : j.poly ∈ l) (hD : D j.poly)
    (hp : E.two.polys[j.poly]? = some p) (hi : p[j.index]? = some h0) (hg : Img E X s.m pl h0 j.first) :
    ∃ s' pl' q, stitchPoly E k s j = some s' ∧ Inv d E m1 mS k l X D s' pl' ∧ After k s s' pl pl' ∧ s'.polys = s.polys ++ [q] ∧ s'.faces = (s.polys.length, j.poly) :: s.faces ∧ s'.cmv = s.cmv ∧
      List.Forall₂ (Img E X s'.m pl') (p.rotate j.index) q ∧ ∀ h ∈ p, h ≠ h0 → (s'.inst k h).isSome := by
  have hlt := (List.getElem?_eq_some_iff.1 hi).1
  have hpos : 0 < p.length := by omega
  have hr0 : (p.rotate j.index)[0]? = some h0 := by
    rw [List.getElem?_rotate hpos, Nat.zero_add, Nat.mod_eq_of_lt hlt]; exact hi
  have htake : (p.rotate j.index).take 1 = [h0] := by
    have : (p.rotate j.index).take (0 + 1) = (p.rotate j.index).take 0 ++ ((p.rotate j.index)[0]?).toList := List.take_succ
    rw [hr0] at this
    simpa using this
  obtain ⟨s1, pl1, q, v1, v2, v3, v4, v5⟩ := visits_spec (first := j.first) (i := j.index) S hS hj hD hp rfl (p.length - 1) 1 s pl [j.first] (by rw [List.length_rotate]; omega) (by omega) I
    (by rw [htake]; exact .cons hg .nil) rfl
  refine ⟨{ s1 with polys := s1.polys ++ [q], faces := (s1.polys.length, j.poly) :: s1.faces }, pl1, q, ?_, ⟨v2.v, v2.inst, v2.seen⟩, ⟨v3.grown, v3.pl, v3.others, v3.inst⟩, ?_, ?_, v3.cmv, v4, ?_⟩
  · unfold stitchPoly
    rw [hp, Option.bind_some]
    unfold remaining
    rw [List.length_rotate]
    rw [List.length_rotate] at v1
    rw [v1]
    rfl
  · show s1.polys ++ [q] = _; rw [v3.polys]
  · show (s1.polys.length, j.poly) :: s1.faces = _; rw [v3.polys, v3.faces]
  · intro h hh hne
    have hh' : h ∈ p.rotate j.index := List.mem_rotate.2 hh
    obtain ⟨a, ha, e⟩ := List.getElem_of_mem hh'
    have hae : (p.rotate j.index)[a]? = some h := by rw [List.getElem?_eq_getElem ha, e]
    refine v5 a h ?_ hae
    by_contra hcon
    have : a = 0 := by omega
    subst this
    rw [hr0] at hae
    exact hne (Option.some.inj hae).symm

end Mcut.Stitch
