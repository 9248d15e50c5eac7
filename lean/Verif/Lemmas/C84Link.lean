import Verif.Lemmas.C84Extract

/-!
# Lemmas for C84: which of the stitched polygons are connected
-/
namespace Mcut.Stitch
open Mcut.Hmesh Mcut.Extract Mcut.Preproc
open Mcut.Split (In SplitOf src_some Flat SameFragment)
open Mcut.Trace (src Round src_of)
variable {P : Type} {d : P} {m0 m1 m : Mesh P} {base numCut n : Nat} {source polys pats polys1 polysS : List (List Nat)} {ks : List Nat} {ver orig : Nat → Nat} {faces cmv : List (Nat × Nat)}
  {at' half : Nat → Nat → Nat} {made : List (Nat × Nat)}

theorem linked_trans (hr : Reachable d m) (T : Traced m polysS) {f g h : Nat} (hf : f < polysS.length) (hg : g < polysS.length) (hh : h < polysS.length) (a : Extract.Linked m polysS f g)
    (b : Extract.Linked m polysS g h) : Extract.Linked m polysS f h := by
  have B := insert_spec hr T
  have tr : ∀ {a b : Nat}, a < polysS.length → b < polysS.length → (faceComponent (insertPolygons m polysS) a = faceComponent (insertPolygons m polysS) b ↔ Extract.Linked m polysS a b) :=
    fun ha hb => same_component hr B T _ _ (by omega) (by omega)
  exact (tr hf hh).1 (((tr hf hg).2 a).trans ((tr hg hh).2 b))

theorem linked_symm {f g : Nat} (a : Extract.Linked m polysS f g) : Extract.Linked m polysS g f := by
  obtain ⟨u, v, h1, h2, h3⟩ := a
  exact ⟨v, u, h2, h1, h3.symm _ _⟩

theorem mem_corners {f : Nat} {q : List Nat} (hq : polysS[f]? = some q) {g : Nat} (hg : g ∈ q) : m.target g ∈ corners m polysS f := by
  unfold corners
  rw [List.getD_eq_getElem?_getD, hq]
  exact List.mem_map.2 ⟨g, hg, rfl⟩

/-- Polygons with a common edge are connected. -/
theorem linked_edge (hr : Reachable d m) (T : Traced m polysS) {f f' : Nat} {q q' : List Nat} (hq : polysS[f]? = some q) (hq' : polysS[f']? = some q') {g : Nat} (hg : g ∈ q) (hg' : opposite g ∈ q') :
    Extract.Linked m polysS f f' := by
  have gl := T.live q (List.mem_of_getElem? hq) g hg
  refine ⟨_, _, mem_corners hq hg, mem_corners hq' hg', (Relation.EqvGen.rel _ _ ⟨g, gl, ?_, rfl⟩).symm _ _⟩
  rw [src_some hr gl, (src_of hr gl).1]

section
variable (T : StitchedOf d m0 base numCut n source polys pats ks m1 polys1 ver orig m polysS faces cmv at' half made)
include T

/-- The polygon of the source mesh. -/
theorem StitchedOf.old_poly (V : SplitOf d m0 base numCut source m1 polys1 ver orig) {f : Nat} {p : List Nat} (hp : source[f]? = some p) : polysS[f]? = some (p.map ver) := by
  obtain ⟨news, e1, -⟩ := T.polygons
  have hl : f < polys1.length := by rw [V.polygons, List.length_map]; exact (List.getElem?_eq_some_iff.1 hp).1
  rw [e1, List.getElem?_append_left hl, V.polygons, List.getElem?_map, hp]; rfl

/-- The polygon of a patch. -/
theorem StitchedOf.new_poly {a k j : Nat} (hm : made[a]? = some (k, j)) : ∃ p r, polys[j]? = some p ∧ r ~r p ∧ polysS[polys1.length + a]? = some (r.map (half k)) := by
  obtain ⟨news, e1, e2⟩ := T.polygons
  obtain ⟨ha, hae⟩ := List.getElem?_eq_some_iff.1 hm
  have hl := e2.length_eq
  obtain ⟨p, r, r1, r2, r3⟩ := (List.forall₂_iff_get.1 e2).2 a ha (by omega)
  simp only [List.get_eq_getElem, hae] at r1 r3
  refine ⟨p, r, r1, r2, ?_⟩
  rw [e1, List.getElem?_append_right (by omega), Nat.add_sub_cancel_left, List.getElem?_eq_getElem (by omega), r3]

theorem StitchedOf.place_of (X : Sheets m0 numCut polys pats ks) {k j : Nat} {l : List Nat} (hk : k ∈ ks) (hl : pats[k]? = some l) (hj : j ∈ l) : ∃ a : Nat, made[a]? = some (k, j) := by
  have hm : (k, j) ∈ made := T.all.mem_iff.2 (List.mem_flatMap.2 ⟨k, hk, List.mem_map.2 ⟨j, by rw [List.getD_eq_getElem?_getD, hl]; exact hj, rfl⟩⟩)
  obtain ⟨a, ha, e⟩ := List.getElem_of_mem hm
  exact ⟨a, by rw [List.getElem?_eq_getElem ha, e]⟩

theorem StitchedOf.made_of {k j : Nat} (hm : (k, j) ∈ made) (X : Sheets m0 numCut polys pats ks) : k ∈ ks ∧ ∃ l, pats[k]? = some l ∧ j ∈ l := by
  obtain ⟨k', hk', h⟩ := List.mem_flatMap.1 (T.all.mem_iff.1 hm)
  obtain ⟨j', hj', e⟩ := List.mem_map.1 h
  obtain ⟨rfl, rfl⟩ := Prod.mk.inj e
  obtain ⟨l, hl, -⟩ := X.list k' hk'
  rw [List.getD_eq_getElem?_getD, hl] at hj'
  exact ⟨hk', l, hl, hj'⟩

/-- Fragments stay together. -/
theorem StitchedOf.link_source (r0 : Reachable d m0) (V : SplitOf d m0 base numCut source m1 polys1 ver orig) (F : Flat m0 base source) (T1 : Traced m1 polys1) {f g : Nat} (hf : f < source.length)
    (hg : g < source.length) (h : SameFragment m0 base numCut source f g) : Extract.Linked m polysS f g := by
  obtain ⟨u, v, hu, hv, hc⟩ := (V.linked r0 F T1 hf hg).2 h
  have hlen : polys1.length = source.length := by rw [V.polygons]; simp
  have old : ∀ h, LiveH m1 h → LiveH m h ∧ src m h = src m1 h ∧ m.target h = m1.target h := fun h hh => T.kept.2.2 h hh
  have hcor : ∀ f, f < polys1.length → corners m polysS f = corners m1 polys1 f := by
    intro f hf
    obtain ⟨news, e1, -⟩ := T.polygons
    unfold corners
    rw [e1, List.getD_eq_getElem?_getD, List.getD_eq_getElem?_getD, List.getElem?_append_left hf, List.getElem?_eq_getElem hf]
    exact List.map_congr_left (fun h hh => (old h (T1.live _ (List.getElem_mem hf) h hh)).2.2)
  refine ⟨u, v, by rw [hcor f (by omega)]; exact hu, by rw [hcor g (by omega)]; exact hv, ?_⟩
  refine Relation.EqvGen.mono ?_ _ _ hc
  rintro x y ⟨e, e1, e2, e3⟩
  obtain ⟨o1, o2, o3⟩ := old e e1
  rw [src_some V.mesh.1 e1] at e2
  exact ⟨e, o1, by rw [src_some T.mesh.1 o1, o2]; exact e2, by rw [o3, e3]⟩

/-- A patch stays together. -/
theorem StitchedOf.link_patch (TS : Traced m polysS) (X : Sheets m0 numCut polys pats ks) {a b k j j' : Nat} (ha : made[a]? = some (k, j)) (hb : made[b]? = some (k, j')) :
    Extract.Linked m polysS (polys1.length + a) (polys1.length + b) := by
  have hr := T.mesh.1
  obtain ⟨hk, l, hl, hj⟩ := T.made_of (List.mem_of_getElem? ha) X
  obtain ⟨-, l', hl', hj'⟩ := T.made_of (List.mem_of_getElem? hb) X
  rw [hl] at hl'; obtain rfl := Option.some.inj hl'
  have lt : ∀ {x : Nat} {y : Nat × Nat}, made[x]? = some y → polys1.length + x < polysS.length := by
    intro x y hx
    obtain ⟨_, r, -, -, h⟩ := T.new_poly (k := y.1) (j := y.2) hx
    exact (List.getElem?_eq_some_iff.1 h).1
  have key := X.joined k hk l hl (fun i => ∀ x : Nat, made[x]? = some (k, i) → Extract.Linked m polysS (polys1.length + a) (polys1.length + x)) ⟨j, hj, ?_⟩ ?_ j' hj' b hb
  · exact key
  · intro x hx
    have : x = a := (List.getElem?_inj (List.getElem?_eq_some_iff.1 hx).1 (T.made_nodup X)).1 (hx.trans ha.symm)
    subst this
    obtain ⟨p, r, r1, r2, r3⟩ := T.new_poly hx
    obtain ⟨p', p1, p2, -⟩ := X.poly k hk l hl j hj
    rw [r1] at p1; obtain rfl := Option.some.inj p1
    have : r ≠ [] := by
      rintro rfl
      have := r2.perm.length_eq
      have := p2.three
      simp at *
      omega
    obtain ⟨z, hz⟩ := List.exists_mem_of_ne_nil _ this
    have hc := mem_corners (m := m) r3 (List.mem_map.2 ⟨z, hz, rfl⟩)
    exact ⟨_, _, hc, hc, .refl _⟩
  · intro i hi hA p hp x hx hxn i' hi' q hq hxq y hy
    obtain ⟨z, hz⟩ := T.place_of X hk hl hi
    obtain ⟨p', r, r1, r2, r3⟩ := T.new_poly hz
    rw [hp] at r1; obtain rfl := Option.some.inj r1
    obtain ⟨q', s, s1, s2, s3⟩ := T.new_poly hy
    rw [hq] at s1; obtain rfl := Option.some.inj s1
    have i1 : InSheet polys pats k x := ⟨l, i, p, hl, hi, hp, hx⟩
    have i2 : InSheet polys pats k (opposite x) := ⟨l, i', q, hl, hi', hq, hxq⟩
    have := linked_edge hr TS r3 s3 (g := half k x) (List.mem_map.2 ⟨x, r2.perm.mem_iff.2 hx, rfl⟩) (by
      rw [← T.together k hk x i1 i2]
      exact List.mem_map.2 ⟨_, s2.perm.mem_iff.2 hxq, rfl⟩)
    exact linked_trans hr TS (lt ha) (lt hz) (lt hy) (hA z hz) this

/-- Along the cut, a patch is connected with the polygon on the other side. -/
theorem StitchedOf.link_cut (TS : Traced m polysS) (V : SplitOf d m0 base numCut source m1 polys1 ver orig) (X : Sheets m0 numCut polys pats ks) {k h : Nat} (hk : k ∈ ks) (hs : InSheet polys pats k h) (hc : h < numCut)
    {f : Nat} {p : List Nat} (hp : source[f]? = some p) (hh : opposite h ∈ p) : ∃ a j : Nat, made[a]? = some (k, j) ∧ Extract.Linked m polysS f (polys1.length + a) := by
  obtain ⟨l, j, q, hl, hj, hq, hhq⟩ := id hs
  obtain ⟨a, ha⟩ := T.place_of X hk hl hj
  obtain ⟨q', r, r1, r2, r3⟩ := T.new_poly ha
  rw [hq] at r1; obtain rfl := Option.some.inj r1
  refine ⟨a, j, ha, linked_edge T.mesh.1 TS (T.old_poly V hp) r3 (g := ver (opposite h)) (List.mem_map.2 ⟨_, hh, rfl⟩) ?_⟩
  rw [← (T.sealed k hk h hs hc).2]
  exact List.mem_map.2 ⟨_, r2.perm.mem_iff.2 hhq, rfl⟩

/-- Every polygon of a patch is connected with a polygon of the source mesh. -/
theorem StitchedOf.reach_source (TS : Traced m polysS) (V : SplitOf d m0 base numCut source m1 polys1 ver orig) (X : Sheets m0 numCut polys pats ks) {f : Nat} (hf : f < polysS.length) :
    ∃ g, g < source.length ∧ Extract.Linked m polysS f g := by
  have hlen : polys1.length = source.length := by rw [V.polygons]; simp
  by_cases h : f < polys1.length
  · refine ⟨f, by omega, ?_⟩
    have hv := (TS.valid.1 ((polysS[f]).map m.target) (List.mem_map.2 ⟨_, List.getElem_mem hf, rfl⟩)).1
    have hne : polysS[f] ≠ [] := by
      intro h0
      rw [h0] at hv
      simp at hv
    obtain ⟨z, hz⟩ := List.exists_mem_of_ne_nil _ hne
    have hc := mem_corners (m := m) (List.getElem?_eq_getElem hf) hz
    exact ⟨_, _, hc, hc, .refl _⟩
  · obtain ⟨a, k, j, l, p, r, e, hm, hk, hl, hj, hp, hr', hq, hin, -⟩ := T.new X (i := f) (by omega) (List.getElem?_eq_getElem hf)
    obtain ⟨x, hx, hxc⟩ := X.cut k hk
    obtain ⟨⟨s, hs, hss⟩, -⟩ := T.sealed k hk x hx hxc
    obtain ⟨g, hg, rfl⟩ := List.getElem_of_mem hs
    obtain ⟨b, j', hb, hL⟩ := T.link_cut TS V X hk hx hxc (List.getElem?_eq_getElem hg) hss
    refine ⟨g, hg, ?_⟩
    have h2 := T.link_patch TS X hm hb
    obtain ⟨_, _, -, -, h3⟩ := T.new_poly hb
    have lb := (List.getElem?_eq_some_iff.1 h3).1
    rw [e] at hf ⊢
    have : g < polysS.length := by omega
    exact linked_trans T.mesh.1 TS hf lb this h2 (linked_symm hL)

end

end Mcut.Stitch
