import Verif.Spec.C78
import Verif.Props.C59
import Verif.Lemmas.C77Scene

/-!
# Lemmas for C78: what hangs together after the cut
-/
namespace Mcut.Split
open Mcut.Hmesh Mcut.Extract Mcut.Preproc
open Mcut.Trace (src Follows)
variable {P : Type} {d : P} {m0 m1 : Mesh P} {base numCut : Nat} {polys polys1 : List (List Nat)} {ver orig : Nat → Nat}

theorem dirEdges_map (g : Nat → Nat) (l : List Nat) : dirEdges (l.map g) = (dirEdges l).map (fun q => (g q.1, g q.2)) := by
  unfold dirEdges
  rw [List.map_map, List.length_map]
  refine List.map_congr_left (fun i hi => ?_)
  rw [List.mem_range] at hi
  have h2 : (i + 1) % l.length < l.length := Nat.mod_lt _ (by omega)
  simp [List.getD_eq_getElem?_getD, hi, h2]

theorem src_some {m : Mesh P} (hr : Reachable d m) {h : Nat} (hl : LiveH m h) : m.source h = some (src m h) := by
  unfold src
  rw [(reachable_wf hr).source hl]; rfl

/-- The polygons that were cut apart are still closed walks that form a valid polygon mesh. -/
theorem SplitOf.traced (S : SplitOf d m0 base numCut polys m1 polys1 ver orig) (T : Traced m0 polys) : Traced m1 polys1 := by
  obtain ⟨hr, h1, h2, h3, h4⟩ := S.mesh
  have W := reachable_wf hr
  have hin : ∀ p ∈ polys, ∀ h ∈ p, In polys h := fun p hp h hh => ⟨p, hp, hh⟩
  have hmap : ∀ p ∈ polys, ((p.map ver).map m1.target).map orig = p.map m0.target := by
    intro p hp
    rw [List.map_map, List.map_map]
    exact List.map_congr_left (fun h hh => (S.ends h (hin p hp h hh)).2)
  refine ⟨h1, ⟨h2, h4⟩, ?_, ?_, ?_, ?_⟩
  · intro p hp h hh
    rw [S.polygons] at hp
    obtain ⟨p, hp', rfl⟩ := List.mem_map.1 hp
    obtain ⟨h, hh', rfl⟩ := List.mem_map.1 hh
    exact S.live h (hin p hp' h hh')
  · intro p hp i hi
    rw [S.polygons] at hp
    obtain ⟨p, hp', rfl⟩ := List.mem_map.1 hp
    clear hp
    have hp := hp'
    rw [List.length_map] at hi ⊢
    have hj : (i + 1) % p.length < p.length := Nat.mod_lt _ (by omega)
    have e1 : (p.map ver).getD i 0 = ver p[i] := by simp [List.getD_eq_getElem?_getD, hi]
    have e2 : (p.map ver).getD ((i + 1) % p.length) 0 = ver p[(i + 1) % p.length] := by simp [List.getD_eq_getElem?_getD, hj]
    rw [e1, e2, src_some hr (S.live _ (hin p hp _ (List.getElem_mem hj)))]
    rw [S.closed p hp p[i] p[(i + 1) % p.length] ⟨i, List.getElem?_eq_getElem hi, List.getElem?_eq_getElem hj⟩]
  · intro f hf
    rw [S.polygons, List.map_map] at hf
    obtain ⟨p, hp, rfl⟩ := List.mem_map.1 hf
    have G := T.valid.1 (p.map m0.target) (List.mem_map.2 ⟨p, hp, rfl⟩)
    refine ⟨?_, ?_, ?_⟩
    · simpa using G.1
    · have := G.2.1
      rw [← hmap p hp] at this
      exact this.of_map
    · intro v hv
      obtain ⟨k, hk, rfl⟩ := List.mem_map.1 hv
      obtain ⟨h, hh, rfl⟩ := List.mem_map.1 hk
      exact (W.half _ (S.live h (hin p hp h hh))).2.2.1.1
  · have key : (((polys1.map (fun p => p.map m1.target)).flatMap dirEdges).map (fun q => (orig q.1, orig q.2))) = (polys.map (fun p => p.map m0.target)).flatMap dirEdges := by
      rw [List.map_flatMap, S.polygons, List.map_map, List.flatMap_map, List.flatMap_map]
      refine List.flatMap_congr (fun p hp => ?_)
      show (dirEdges ((p.map ver).map m1.target)).map _ = _
      rw [← dirEdges_map, hmap p hp]
    have := T.valid.2
    rw [← key] at this
    exact this.of_map

/-- What the polygons of the source mesh are like. -/
structure Flat (m0 : Mesh P) (base : Nat) (polys : List (List Nat)) : Prop where
  flat : polys.flatten.Nodup
  next : ∀ p ∈ polys, ∀ h ∈ p, ∃ n, Follows p h n
  prev : ∀ p ∈ polys, ∀ h ∈ p, ∃ n, Follows p n h
  le : base ≤ m0.nV
  alone : ∀ h, LiveH m0 h → src m0 h < base → m0.target h < base → In polys h ∨ In polys (opposite h) ∨ ∀ g, In polys g → m0.target g ≠ src m0 h ∧ m0.target g ≠ m0.target h

theorem Flat.same (F : Flat m0 base polys) {f g h : Nat} {p q : List Nat} (hp : polys[f]? = some p) (hq : polys[g]? = some q) (h1 : h ∈ p) (h2 : h ∈ q) : f = g := by
  obtain ⟨hf, rfl⟩ := List.getElem?_eq_some_iff.1 hp
  obtain ⟨hg, rfl⟩ := List.getElem?_eq_some_iff.1 hq
  have := (List.nodup_flatten.1 F.flat).2
  rw [List.pairwise_iff_getElem] at this
  by_contra hne
  rcases Nat.lt_or_gt_of_ne hne with hlt | hlt
  · exact this f g hf hg hlt h1 h2
  · exact this g f hg hf hlt h2 h1

theorem SplitOf.target_lt (S : SplitOf d m0 base numCut polys m1 polys1 ver orig) {h : Nat} (hh : In polys h) : m1.target (ver h) < m1.nV :=
  ((reachable_wf S.mesh.1).half _ (S.live h hh)).2.2.1.1

/-- An original vertex has one version only: itself. -/
theorem SplitOf.only (S : SplitOf d m0 base numCut polys m1 polys1 ver orig) {w : Nat} (hw : w < m1.nV) (hb : orig w < base) : w = orig w := by
  by_cases h : w < m0.nV
  · exact (S.kept.2 w h).symm
  · have := (S.copies w (by omega) hw).1
    omega

theorem SplitOf.corner (S : SplitOf d m0 base numCut polys m1 polys1 ver orig) {f u : Nat} :
    u ∈ corners m1 polys1 f ↔ ∃ p h, polys[f]? = some p ∧ h ∈ p ∧ m1.target (ver h) = u := by
  unfold corners
  rw [S.polygons, List.getD_eq_getElem?_getD, List.getElem?_map]
  cases hp : polys[f]? with
  | none => simp
  | some p => simp

/-- Polygons with a common corner hang together. -/
theorem SplitOf.share (S : SplitOf d m0 base numCut polys m1 polys1 ver orig) (F : Flat m0 base polys) {f g u : Nat} (hf : u ∈ corners m1 polys1 f) (hg : u ∈ corners m1 polys1 g) :
    SameFragment m0 base numCut polys f g := by
  obtain ⟨p, h, hp, hh, e⟩ := S.corner.1 hf
  obtain ⟨q, h', hq, hh', e'⟩ := S.corner.1 hg
  have i1 : In polys h := ⟨p, List.mem_of_getElem? hp, hh⟩
  have i2 : In polys h' := ⟨q, List.mem_of_getElem? hq, hh'⟩
  have et : m0.target h = m0.target h' := by rw [← (S.ends h i1).2, ← (S.ends h' i2).2, e, e']
  by_cases hb : m0.target h < base
  · exact .rel _ _ ⟨p, q, h, h', hp, hq, hh, hh', .inl ⟨et, hb⟩⟩
  · have next : ∀ {f g : Nat} {p q : List Nat} {h h' : Nat}, polys[f]? = some p → polys[g]? = some q → h ∈ p → h' ∈ q → Next polys numCut h h' →
        SameFragment m0 base numCut polys f g := by
      rintro f g p q h h' hp hq hh hh' ⟨hn, q', hq', k, k1, k2⟩
      obtain ⟨j, hj⟩ := List.getElem?_of_mem hq'
      have : j = g := F.same hj hq (List.mem_of_getElem? k1) hh'
      subst this
      rw [hq] at hj
      obtain rfl := Option.some.inj hj
      exact .rel _ _ ⟨p, q, h, opposite h, hp, hq, hh, List.mem_of_getElem? k2, .inr ⟨rfl, hn⟩⟩
    rcases (S.points h h' i1 i2 (by omega)).1 (by rw [e, e']) with h1 | h1 | h1
    · subst h1
      rw [F.same hp hq hh hh']
      exact .refl _
    · exact next hp hq hh hh' h1
    · exact (next hq hp hh' hh h1).symm _ _

theorem SplitOf.src_corner (S : SplitOf d m0 base numCut polys m1 polys1 ver orig) (F : Flat m0 base polys) {f : Nat} {p : List Nat} (hp : polys[f]? = some p) {h : Nat} (hh : h ∈ p) :
    src m1 (ver h) ∈ corners m1 polys1 f ∧ m1.target (ver h) ∈ corners m1 polys1 f := by
  refine ⟨?_, S.corner.2 ⟨p, h, hp, hh, rfl⟩⟩
  obtain ⟨y, hy⟩ := F.prev p (List.mem_of_getElem? hp) h hh
  obtain ⟨k, k1, -⟩ := id hy
  exact S.corner.2 ⟨p, y, hp, List.mem_of_getElem? k1, S.closed p (List.mem_of_getElem? hp) y h hy⟩

theorem edge_half {h k : Nat} (e : edgeOf h = edgeOf k) : k = h ∨ k = opposite h := by
  unfold edgeOf at e
  unfold opposite
  split <;> omega

/-- Along an edge nothing changes. -/
theorem SplitOf.step (r0 : Reachable d m0) (S : SplitOf d m0 base numCut polys m1 polys1 ver orig) (F : Flat m0 base polys) {u v : Nat} (he : MeshEdge m1 u v) :
    (∃ f, u ∈ corners m1 polys1 f ∧ v ∈ corners m1 polys1 f) ∨ ((∀ f, u ∉ corners m1 polys1 f) ∧ ∀ f, v ∉ corners m1 polys1 f) := by
  obtain ⟨k, hk, hu, hv⟩ := he
  have hr := S.mesh.1
  have hu' : src m1 k = u := by unfold src; rw [hu]; rfl
  rcases S.others k hk with ⟨h, ⟨p, hp, hh⟩, e⟩ | ⟨h, hl, e1, e2, b1, b2⟩
  · obtain ⟨f, hf⟩ := List.getElem?_of_mem hp
    obtain ⟨c1, c2⟩ := S.src_corner F hf hh
    obtain ⟨s1, -, s3, -, -⟩ := Trace.src_of hr (S.live h ⟨p, hp, hh⟩)
    refine .inl ⟨f, ?_⟩
    rcases edge_half e with rfl | rfl
    · rw [← hu', ← hv]; exact ⟨c1, c2⟩
    · rw [← hu', ← hv, s3, ← s1]; exact ⟨c2, c1⟩
  · have own : ∀ {f : Nat} {p : List Nat} {x : Nat}, polys[f]? = some p → x ∈ p → (src m0 x < base → src m0 x ∈ corners m1 polys1 f) ∧ (m0.target x < base → m0.target x ∈ corners m1 polys1 f) := by
      intro f p x hf hx
      obtain ⟨c1, c2⟩ := S.src_corner F hf hx
      have hin : In polys x := ⟨p, List.mem_of_getElem? hf, hx⟩
      obtain ⟨q1, q2⟩ := S.ends x hin
      constructor
      · intro hb
        rw [← q1]
        have : src m1 (ver x) < m1.nV := by
          rw [(Trace.src_of hr (S.live x hin)).1]
          exact ((reachable_wf hr).half _ (Trace.src_of hr (S.live x hin)).2.2.2.2).2.2.1.1
        rw [← S.only this (by rw [q1]; exact hb)]; exact c1
      · intro hb
        rw [← q2]
        rw [← S.only (S.target_lt hin) (by rw [q2]; exact hb)]; exact c2
    have hu2 : u = src m0 h := by rw [← hu', e1]
    have hv2 : v = m0.target h := by rw [← hv, e2]
    subst hu2
    subst hv2
    rcases F.alone h hl b1 b2 with ⟨p, hp, hx⟩ | ⟨p, hp, hx⟩ | hno
    · obtain ⟨f, hf⟩ := List.getElem?_of_mem hp
      exact .inl ⟨f, (own hf hx).1 b1, (own hf hx).2 b2⟩
    · obtain ⟨f, hf⟩ := List.getElem?_of_mem hp
      obtain ⟨s1, -, s3, -, -⟩ := Trace.src_of r0 hl
      exact .inl ⟨f, by rw [s1]; exact (own hf hx).2 (by rw [← s1]; exact b1), by rw [← s3]; exact (own hf hx).1 (by rw [s3]; exact b2)⟩
    · have key : ∀ f w, w < base → w ∈ corners m1 polys1 f → ∃ g, In polys g ∧ m0.target g = w := by
        intro f w hw hc
        obtain ⟨p, g, hp, hg, e⟩ := S.corner.1 hc
        have hin : In polys g := ⟨p, List.mem_of_getElem? hp, hg⟩
        refine ⟨g, hin, ?_⟩
        rw [← (S.ends g hin).2, e]
        exact S.kept.2 w (by have := F.le; omega)
      refine .inr ⟨fun f hc => ?_, fun f hc => ?_⟩
      · obtain ⟨g, g1, g2⟩ := key f _ b1 hc
        exact (hno g g1).1 g2
      · obtain ⟨g, g1, g2⟩ := key f _ b2 hc
        exact (hno g g1).2 g2

/-- Polygons are connected in "m1" exactly if they hang together without crossing the cut. -/
theorem SplitOf.linked (r0 : Reachable d m0) (S : SplitOf d m0 base numCut polys m1 polys1 ver orig) (F : Flat m0 base polys) (T : Traced m1 polys1) {f g : Nat} (hf : f < polys.length) (hg : g < polys.length) :
    Extract.Linked m1 polys1 f g ↔ SameFragment m0 base numCut polys f g := by
  have hlen : polys1.length = polys.length := by rw [S.polygons]; simp
  constructor
  · rintro ⟨u, v, hu, hv, hc⟩
    have key : ∀ u v, Connected m1 u v → ((∃ f, u ∈ corners m1 polys1 f) ↔ ∃ f, v ∈ corners m1 polys1 f) ∧
        ∀ f g, u ∈ corners m1 polys1 f → v ∈ corners m1 polys1 g → SameFragment m0 base numCut polys f g := by
      intro u v h
      induction h with
      | rel u v h =>
        rcases S.step r0 F h with ⟨x, x1, x2⟩ | ⟨n1, n2⟩
        · exact ⟨⟨fun _ => ⟨x, x2⟩, fun _ => ⟨x, x1⟩⟩, fun f g h1 h2 => (S.share F h1 x1).trans _ _ _ (S.share F x2 h2)⟩
        · exact ⟨⟨fun ⟨y, hy⟩ => absurd hy (n1 y), fun ⟨y, hy⟩ => absurd hy (n2 y)⟩, fun f g h1 => absurd h1 (n1 f)⟩
      | refl u => exact ⟨Iff.rfl, fun f g h1 h2 => S.share F h1 h2⟩
      | symm u v _ ih => exact ⟨ih.1.symm, fun f g h1 h2 => (ih.2 g f h2 h1).symm _ _⟩
      | trans u w v _ _ i1 i2 =>
        refine ⟨i1.1.trans i2.1, fun f g h1 h2 => ?_⟩
        obtain ⟨x, hx⟩ := i1.1.1 ⟨f, h1⟩
        exact (i1.2 f x h1 hx).trans _ _ _ (i2.2 x g hx h2)
    exact (key u v hc).2 f g hu hv
  · intro h
    have B := insert_spec S.mesh.1 T
    have tr : ∀ {a b : Nat}, a < polys.length → b < polys.length → (faceComponent (insertPolygons m1 polys1) a = faceComponent (insertPolygons m1 polys1) b ↔ Extract.Linked m1 polys1 a b) :=
      fun ha hb => same_component S.mesh.1 B T _ _ (by omega) (by omega)
    have main : ∀ a b, SameFragment m0 base numCut polys a b → (a < polys.length ↔ b < polys.length) ∧ (a < polys.length → faceComponent (insertPolygons m1 polys1) a = faceComponent (insertPolygons m1 polys1) b) := by
      intro a b h
      induction h with
      | rel a b h =>
        obtain ⟨p, q, x, y, hp, hq, hx, hy, hh⟩ := h
        obtain ⟨la, -⟩ := List.getElem?_eq_some_iff.1 hp
        obtain ⟨lb, -⟩ := List.getElem?_eq_some_iff.1 hq
        refine ⟨⟨fun _ => lb, fun _ => la⟩, fun _ => (tr la lb).2 ?_⟩
        have ix : In polys x := ⟨p, List.mem_of_getElem? hp, hx⟩
        have iy : In polys y := ⟨q, List.mem_of_getElem? hq, hy⟩
        rcases hh with ⟨e, hb⟩ | ⟨e, hn⟩
        · refine ⟨_, _, (S.src_corner F hp hx).2, (S.src_corner F hq hy).2, ?_⟩
          have e1 := (S.ends x ix).2
          have e2 := (S.ends y iy).2
          rw [S.only (S.target_lt ix) (by omega), S.only (S.target_lt iy) (by omega), e1, e2, e]
          exact .refl _
        · subst e
          have e := S.together x ix iy hn
          have s := (Trace.src_of S.mesh.1 (S.live x ix))
          refine ⟨m1.target (ver x), src m1 (ver (opposite x)), (S.src_corner F hp hx).2, (S.src_corner F hq hy).1, ?_⟩
          rw [e, s.2.2.1]
          exact .refl _
      | refl a => exact ⟨Iff.rfl, fun _ => rfl⟩
      | symm a b _ ih => exact ⟨ih.1.symm, fun hb => (ih.2 (ih.1.2 hb)).symm⟩
      | trans a x b _ _ i1 i2 => exact ⟨i1.1.trans i2.1, fun ha => (i1.2 ha).trans (i2.2 (i1.1.1 ha))⟩
    exact (tr hf hg).1 ((main f g h).2 hf)

end Mcut.Split
