import Verif.Lemmas.C78
import Verif.Spec.C83
import Verif.Lemmas.C74

/-!
# Lemmas for C84: the stitched polygons form a valid polygon mesh
-/
namespace Mcut.Stitch
open Mcut.Hmesh Mcut.Extract Mcut.Preproc
open Mcut.Split (In SplitOf src_some)
open Mcut.Trace (src Round src_of)
variable {P : Type} {d : P} {m0 m1 m : Mesh P} {base numCut n : Nat} {source polys pats polys1 polysS : List (List Nat)} {ks : List Nat} {ver orig : Nat → Nat} {faces cmv : List (Nat × Nat)}
  {at' half : Nat → Nat → Nat} {made : List (Nat × Nat)}

/-- What the patches `ks` are like. -/
structure Sheets (m0 : Mesh P) (numCut : Nat) (polys pats : List (List Nat)) (ks : List Nat) : Prop where
  nodup : ks.Nodup
  list : ∀ k ∈ ks, ∃ l, pats[k]? = some l ∧ l.Nodup
  poly : ∀ k ∈ ks, ∀ l, pats[k]? = some l → ∀ j ∈ l, ∃ p, polys[j]? = some p ∧ Round m0 p ∧ (p.map m0.target).Nodup ∧ ∀ h ∈ p, LiveH m0 h
  once : ∀ k ∈ ks, ∀ l, pats[k]? = some l → ∀ i ∈ l, ∀ j ∈ l, ∀ p q h, polys[i]? = some p → polys[j]? = some q → h ∈ p → h ∈ q → i = j
  joined : ∀ k ∈ ks, ∀ l, pats[k]? = some l → ∀ A : Nat → Prop, (∃ i ∈ l, A i) →
    (∀ i ∈ l, A i → ∀ p, polys[i]? = some p → ∀ x ∈ p, numCut ≤ x → ∀ j ∈ l, ∀ q, polys[j]? = some q → opposite x ∈ q → A j) → ∀ i ∈ l, A i
  cut : ∀ k ∈ ks, ∃ h, InSheet polys pats k h ∧ h < numCut
  cover : ∀ h, h < numCut → ∃ k ∈ ks, InSheet polys pats k h

/-- The sides of a closed polygon. -/
theorem dirEdges_closed {q : List Nat} (hc : ∀ i, i < q.length → src m (q.getD ((i + 1) % q.length) 0) = m.target (q.getD i 0)) :
    (dirEdges (q.map m.target)).Perm (q.map (fun g => (src m g, m.target g))) := by
  have e : dirEdges (q.map m.target) = (q.rotate 1).map (fun g => (src m g, m.target g)) := by
    refine List.ext_getElem (by simp [dirEdges]) (fun i h1 h2 => ?_)
    rw [List.length_map, List.length_rotate] at h2
    have hj : (i + 1) % q.length < q.length := Nat.mod_lt _ (by omega)
    have := hc i h2
    simp only [List.getD_eq_getElem?_getD, List.getElem?_eq_getElem hj, List.getElem?_eq_getElem h2, Option.getD_some] at this
    simp only [dirEdges, List.getElem_map, List.getElem_range, List.length_map, List.getElem_rotate, List.getD_eq_getElem?_getD, List.getElem?_map, List.getElem?_eq_getElem hj, List.getElem?_eq_getElem h2,
      Option.map_some, Option.getD_some, this]
  rw [e]
  exact (List.rotate_perm _ _).map _

theorem flatMap_perm {α β : Type} {f g : α → List β} : ∀ l : List α, (∀ x ∈ l, (f x).Perm (g x)) → (l.flatMap f).Perm (l.flatMap g)
  | [], _ => List.Perm.refl _
  | x :: l, h => by
    rw [List.flatMap_cons, List.flatMap_cons]
    exact (h x List.mem_cons_self).append (flatMap_perm l (fun y hy => h y (List.mem_cons_of_mem _ hy)))

theorem opp_ne (h : Nat) : opposite h ≠ h := by unfold opposite; split <;> omega
theorem opp_back (h : Nat) : opposite (opposite h) = h := by unfold opposite; split <;> split <;> omega
theorem edge_opp' (x : Nat) : edgeOf (opposite x) = edgeOf x := by unfold edgeOf opposite; split <;> omega

section
variable (T : StitchedOf d m0 base numCut n source polys pats ks m1 polys1 ver orig m polysS faces cmv at' half made)
include T

/-- The halfedges of a patch stay different. -/
theorem StitchedOf.half_inj {k k' h h' : Nat} (hk : k ∈ ks) (hk' : k' ∈ ks) (i : InSheet polys pats k h) (i' : InSheet polys pats k' h') (e : half k h = half k' h') : k = k' ∧ h = h' := by
  obtain ⟨a, b⟩ := T.apart k hk k' hk' h h' i i' (by rw [e])
  subst a
  refine ⟨rfl, ?_⟩
  rcases b with b | ⟨b, -⟩
  · exact b
  · subst b
    rw [T.together k hk h i i'] at e
    exact absurd e.symm (opp_ne _)

/-- The vertices of a patch stay different. -/
theorem StitchedOf.at_inj {k h h' : Nat} (hk : k ∈ ks) (i : InSheet polys pats k h) (i' : InSheet polys pats k h') (e : at' k (m0.target h) = at' k (m0.target h')) :
    m0.target h = m0.target h' := by
  have b1 : base ≤ m1.nV ∨ m1.nV < base := by omega
  by_cases hb : m0.target h < base
  · by_cases hb' : m0.target h' < base
    · by_cases hn : k < n
      · rw [T.same k hk hn _ hb, T.same k hk hn _ hb'] at e; exact e
      · exact ((T.copies k hk (by omega) h i hb).2 k hk h' i' e.symm).2.symm
    · obtain ⟨p1, p2, -⟩ := T.points k hk h' i' (by omega)
      by_cases hn : k < n
      · rw [T.same k hk hn _ hb] at e; omega
      · have := (T.copies k hk (by omega) h i hb).1
        omega
  · obtain ⟨p1, p2, p3⟩ := T.points k hk h i (by omega)
    by_cases hb' : m0.target h' < base
    · by_cases hn : k < n
      · rw [T.same k hk hn _ hb'] at e; omega
      · have := (T.copies k hk (by omega) h' i' hb').1
        omega
    · obtain ⟨q1, q2, q3⟩ := T.points k hk h' i' (by omega)
      rw [← p3, ← q3, e]

/-- The new polygons. -/
theorem StitchedOf.new (X : Sheets m0 numCut polys pats ks) {i : Nat} {q : List Nat} (hi : polys1.length ≤ i) (hq : polysS[i]? = some q) :
    ∃ (a : Nat) (k j : Nat) (l p r : List Nat), i = polys1.length + a ∧ made[a]? = some (k, j) ∧ k ∈ ks ∧ pats[k]? = some l ∧ j ∈ l ∧ polys[j]? = some p ∧ r ~r p ∧ q = r.map (half k) ∧ (∀ h ∈ r, InSheet polys pats k h) ∧
      Round m0 p ∧ (p.map m0.target).Nodup ∧ ∀ h ∈ p, LiveH m0 h := by
  obtain ⟨news, e1, e2⟩ := T.polygons
  rw [e1, List.getElem?_append_right hi] at hq
  obtain ⟨hlt, hq'⟩ := List.getElem?_eq_some_iff.1 hq
  have hl := e2.length_eq
  obtain ⟨p, r, h1, h2, h3⟩ := (List.forall₂_iff_get.1 e2).2 (i - polys1.length) (by omega) hlt
  simp only [List.get_eq_getElem] at h1 h3
  rw [hq'] at h3
  have hm : made[i - polys1.length]'(by omega) ∈ made := List.getElem_mem _
  obtain ⟨k, hk, hw⟩ := List.mem_flatMap.1 (T.all.mem_iff.1 hm)
  obtain ⟨j, jl, hj⟩ := List.mem_map.1 hw
  obtain ⟨l, hl1, -⟩ := X.list k hk
  rw [List.getD_eq_getElem?_getD, hl1] at jl
  have jl' : j ∈ l := jl
  rw [← hj] at h1 h3
  obtain ⟨p', p1, p2, p3, p4⟩ := X.poly k hk l hl1 j jl'
  have : p' = p := by rw [h1] at p1; exact (Option.some.inj p1).symm
  subst this
  refine ⟨i - polys1.length, k, j, l, p', r, by omega, ?_, hk, hl1, jl', h1, h2, h3, fun h hh => ⟨l, j, p', hl1, jl', h1, h2.perm.mem_iff.1 hh⟩, p2, p3, p4⟩
  rw [List.getElem?_eq_getElem (by omega), hj]

theorem StitchedOf.made_nodup (X : Sheets m0 numCut polys pats ks) : made.Nodup := by
  rw [T.all.nodup_iff]
  refine List.nodup_flatMap.2 ⟨fun k hk => ?_, ?_⟩
  · obtain ⟨l, h1, h2⟩ := X.list k hk
    rw [List.getD_eq_getElem?_getD, h1]
    exact h2.map (fun a b h => (Prod.mk.inj h).2)
  · refine X.nodup.imp ?_
    intro a b hab x hx hy
    obtain ⟨i, -, rfl⟩ := List.mem_map.1 hx
    obtain ⟨j, -, h⟩ := List.mem_map.1 hy
    exact hab (Prod.mk.inj h).1.symm

/-- A new polygon is where the polygon of the patch is. -/
theorem StitchedOf.closed_new (r0 : Reachable d m0) {k : Nat} (hk : k ∈ ks) {p r : List Nat} (hr : r ~r p) (hin : ∀ h ∈ r, InSheet polys pats k h) (R : Round m0 p) (hl : ∀ h ∈ p, LiveH m0 h) :
    ∀ i, i < (r.map (half k)).length → src m ((r.map (half k)).getD ((i + 1) % (r.map (half k)).length) 0) = m.target ((r.map (half k)).getD i 0) := by
  intro i hi
  rw [List.length_map] at hi ⊢
  have hj : (i + 1) % r.length < r.length := Nat.mod_lt _ (by omega)
  simp only [List.getD_eq_getElem?_getD, List.getElem?_map, List.getElem?_eq_getElem hj, List.getElem?_eq_getElem hi, Option.map_some, Option.getD_some]
  rw [(T.ends k hk _ (hin _ (List.getElem_mem hj))).2.1, (T.ends k hk _ (hin _ (List.getElem_mem hi))).2.2]
  congr 1
  obtain ⟨t, rfl⟩ := hr.symm
  simp only [List.getElem_rotate, List.length_rotate]
  simp only [List.length_rotate] at hi hj
  have h1 : (i + t) % p.length < p.length := Nat.mod_lt _ (by omega)
  have h2 := R.closed r0 hl _ h1
  have e : ((i + 1) % p.length + t) % p.length = ((i + t) % p.length + 1) % p.length := by
    rw [Nat.mod_add_mod, Nat.mod_add_mod]; congr 1; omega
  have hj2 : ((i + t) % p.length + 1) % p.length < p.length := Nat.mod_lt _ (by omega)
  simp only [e]
  simp only [List.getD_eq_getElem?_getD, List.getElem?_eq_getElem hj2, List.getElem?_eq_getElem h1, Option.getD_some, src_some r0 (hl _ (List.getElem_mem hj2)), Option.some.injEq] at h2
  exact h2

/-- The polygons of the fragments and the patches are closed walks that form a valid polygon mesh. -/
theorem StitchedOf.traced (r0 : Reachable d m0) (V : SplitOf d m0 base numCut source m1 polys1 ver orig) (T1 : Traced m1 polys1) (X : Sheets m0 numCut polys pats ks) : Traced m polysS ∧ polysS.flatten.Nodup := by
  obtain ⟨hr, t1, t2, t3, t4⟩ := T.mesh
  have W := reachable_wf hr
  have old : ∀ p ∈ polys1, ∀ h ∈ p, LiveH m h ∧ src m h = src m1 h ∧ m.target h = m1.target h := fun p hp h hh => T.kept.2.2 h (T1.live p hp h hh)
  obtain ⟨news, e1, e2⟩ := id T.polygons
  have newq : ∀ q ∈ news, ∃ (a k j : Nat) (l p r : List Nat), news[a]? = some q ∧ made[a]? = some (k, j) ∧ k ∈ ks ∧ pats[k]? = some l ∧ j ∈ l ∧ polys[j]? = some p ∧ r ~r p ∧ q = r.map (half k) ∧ (∀ h ∈ r, InSheet polys pats k h) ∧
      Round m0 p ∧ (p.map m0.target).Nodup ∧ ∀ h ∈ p, LiveH m0 h := by
    intro q hq
    obtain ⟨a, ha, rfl⟩ := List.getElem_of_mem hq
    obtain ⟨b, k, j, l, p, r, x1, x⟩ := T.new X (i := polys1.length + a) (by omega) (by rw [e1, List.getElem?_append_right (by omega), Nat.add_sub_cancel_left, List.getElem?_eq_getElem ha])
    have : b = a := by omega
    subst this
    exact ⟨b, k, j, l, p, r, List.getElem?_eq_getElem ha, x⟩
  have live : ∀ p ∈ polysS, ∀ h ∈ p, LiveH m h := by
    intro q hq h hh
    rw [e1] at hq
    rcases List.mem_append.1 hq with hq | hq
    · exact (old q hq h hh).1
    · obtain ⟨a, k, j, l, p, r, -, -, hk, -, -, -, -, rfl, hin, -⟩ := newq q hq
      obtain ⟨x, hx, rfl⟩ := List.mem_map.1 hh
      exact (T.ends k hk x (hin x hx)).1
  have closed : ∀ q ∈ polysS, ∀ i, i < q.length → src m (q.getD ((i + 1) % q.length) 0) = m.target (q.getD i 0) := by
    intro q hq i hi
    rw [e1] at hq
    rcases List.mem_append.1 hq with hq | hq
    · have h2 := T1.closed q hq i hi
      have hj : (i + 1) % q.length < q.length := Nat.mod_lt _ (by omega)
      simp only [List.getD_eq_getElem?_getD, List.getElem?_eq_getElem hj, List.getElem?_eq_getElem hi, Option.getD_some] at h2 ⊢
      rw [(old q hq _ (List.getElem_mem hj)).2.1, (old q hq _ (List.getElem_mem hi)).2.2]
      unfold src
      rw [h2]; rfl
    · obtain ⟨a, k, j, l, p, r, -, -, hk, -, -, -, hrot, rfl, hin, R, -, hl⟩ := newq q hq
      exact T.closed_new r0 hk hrot hin R hl i hi
  have c1 : ∀ q ∈ polys1, (dirEdges (q.map m1.target)).Perm (q.map (fun g => (src m1 g, m1.target g))) := by
    intro q hq
    refine dirEdges_closed (fun i hi => ?_)
    have h2 := T1.closed q hq i hi
    unfold src
    rw [h2]; rfl
  have flat1 : polys1.flatten.Nodup := by
    have h1 := T1.valid.2
    rw [List.flatMap_map] at h1
    have h2 : (polys1.flatMap (fun q => q.map (fun g => (src m1 g, m1.target g)))).Nodup := (flatMap_perm polys1 c1).nodup_iff.1 h1
    rw [show (polys1.flatMap (fun q => q.map (fun g => (src m1 g, m1.target g)))) = polys1.flatten.map (fun g => (src m1 g, m1.target g)) by rw [List.map_flatten, List.flatMap_def]] at h2
    exact h2.of_map
  have flatN : news.flatten.Nodup := by
    rw [List.nodup_flatten]
    constructor
    · intro q hq
      obtain ⟨a, k, j, l, p, r, -, -, hk, -, -, -, hrot, rfl, hin, R, nd, hl⟩ := newq q hq
      have nr : r.Nodup := hrot.nodup_iff.2 nd.of_map
      exact List.Nodup.map_on (fun x hx y hy e => (T.half_inj hk hk (hin x hx) (hin y hy) e).2) nr
    · rw [List.pairwise_iff_getElem]
      intro a b ha hb hab g hg1 hg2
      have go : ∀ c (hc : c < news.length), ∃ (k j : Nat) (l p r : List Nat), made[c]? = some (k, j) ∧ k ∈ ks ∧ pats[k]? = some l ∧ j ∈ l ∧ polys[j]? = some p ∧ r ~r p ∧ news[c] = r.map (half k) ∧ (∀ h ∈ r, InSheet polys pats k h) := by
        intro c hc
        obtain ⟨b, k, j, l, p, r, z1, z2, z3, z4, z5, z6, z7, z8, z9, -⟩ := T.new X (i := polys1.length + c) (by omega) (by rw [e1, List.getElem?_append_right (by omega), Nat.add_sub_cancel_left, List.getElem?_eq_getElem hc])
        have : b = c := by omega
        subst this
        exact ⟨k, j, l, p, r, z2, z3, z4, z5, z6, z7, z8, z9⟩
      obtain ⟨ka, ja, la, pa, ra, u1, u2, u3, u4, u5, u6, u7, u8⟩ := go a ha
      obtain ⟨kb, jb, lb, pb, rb, v1, v2, v3, v4, v5, v6, v7, v8⟩ := go b hb
      rw [u7] at hg1
      rw [v7] at hg2
      obtain ⟨xa, hxa, ea⟩ := List.mem_map.1 hg1
      obtain ⟨xb, hxb, eb⟩ := List.mem_map.1 hg2
      obtain ⟨k0, h0⟩ := T.half_inj u2 v2 (u8 xa hxa) (v8 xb hxb) (ea.trans eb.symm)
      subst k0
      subst h0
      rw [u3] at v3
      obtain rfl := Option.some.inj v3
      have := X.once ka u2 la u3 ja u4 jb v4 pa pb xa u5 v5 (u6.perm.mem_iff.1 hxa) (v6.perm.mem_iff.1 hxb)
      subst this
      have := (List.getElem?_inj (List.getElem?_eq_some_iff.1 u1).1 (T.made_nodup X)).1 (u1.trans v1.symm)
      omega
  have flat : polysS.flatten.Nodup := by
    rw [e1, List.flatten_append, List.nodup_append]
    refine ⟨flat1, flatN, ?_⟩
    intro g hg g' hg' e
    subst e
    obtain ⟨q, hq, hgq⟩ := List.mem_flatten.1 hg
    obtain ⟨q', hq', hgq'⟩ := List.mem_flatten.1 hg'
    rw [V.polygons] at hq
    obtain ⟨p0, hp0, rfl⟩ := List.mem_map.1 hq
    obtain ⟨x, hx, rfl⟩ := List.mem_map.1 hgq
    obtain ⟨a, k, j, l, p, r, -, -, hk, -, -, -, hrot, rfl, hin, -⟩ := newq q' hq'
    obtain ⟨y, hy, e⟩ := List.mem_map.1 hgq'
    obtain ⟨h1, h2⟩ := T.alone k hk y x (hin y hy) ⟨p0, hp0, hx⟩ (by rw [e])
    have := (T.sealed k hk y (hin y hy) h1).2
    rw [e, ← h2] at this
    exact opp_ne _ this.symm
  refine ⟨⟨t1, ⟨t2, t4⟩, live, ?_, ?_, ?_⟩, flat⟩
  · intro q hq i hi
    have hj : (i + 1) % q.length < q.length := Nat.mod_lt _ (by omega)
    have := closed q hq i hi
    rw [src_some hr (live q hq _ (by rw [List.getD_eq_getElem?_getD, List.getElem?_eq_getElem hj]; exact List.getElem_mem hj)), this]
  · intro f hf
    obtain ⟨q, hq, rfl⟩ := List.mem_map.1 hf
    have lt : ∀ v ∈ q.map m.target, v < m.nV := by
      intro v hv
      obtain ⟨h, hh, rfl⟩ := List.mem_map.1 hv
      exact (W.half _ (live q hq h hh)).2.2.1.1
    have hq' := hq
    rw [e1] at hq'
    rcases List.mem_append.1 hq' with hq' | hq'
    · have G := T1.valid.1 (q.map m1.target) (List.mem_map.2 ⟨q, hq', rfl⟩)
      have : q.map m.target = q.map m1.target := List.map_congr_left (fun h hh => (old q hq' h hh).2.2)
      exact ⟨by rw [this]; exact G.1, by rw [this]; exact G.2.1, lt⟩
    · obtain ⟨a, k, j, l, p, r, -, -, hk, -, -, -, hrot, rfl, hin, R, nd, hl⟩ := newq q hq'
      refine ⟨?_, ?_, lt⟩
      · rw [List.length_map, List.length_map, hrot.perm.length_eq]; exact R.three
      · rw [List.map_map]
        refine List.Nodup.map_on (fun x hx y hy e => ?_) (hrot.nodup_iff.2 nd.of_map)
        have e' : m.target (half k x) = m.target (half k y) := e
        rw [(T.ends k hk x (hin x hx)).2.2, (T.ends k hk y (hin y hy)).2.2] at e'
        exact List.inj_on_of_nodup_map nd (hrot.perm.mem_iff.1 hx) (hrot.perm.mem_iff.1 hy) (T.at_inj hk (hin x hx) (hin y hy) e')
  · rw [List.flatMap_map]
    refine (flatMap_perm polysS (fun q hq => dirEdges_closed (closed q hq))).nodup_iff.2 ?_
    rw [show (polysS.flatMap (fun q => q.map (fun g => (src m g, m.target g)))) = polysS.flatten.map (fun g => (src m g, m.target g)) by rw [List.map_flatten, List.flatMap_def]]
    refine List.Nodup.map_on (fun x hx y hy e => ?_) flat
    obtain ⟨q, hq, hxq⟩ := List.mem_flatten.1 hx
    obtain ⟨q', hq', hyq⟩ := List.mem_flatten.1 hy
    obtain ⟨a, b⟩ := Prod.mk.inj e
    exact T.simple x y (live q hq x hxq) (live q' hq' y hyq) a b

end
end Mcut.Stitch
