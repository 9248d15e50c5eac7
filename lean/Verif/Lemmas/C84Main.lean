import Verif.Lemmas.C84Link
import Verif.Lemmas.C81Rev

/-!
# Lemmas for C84: the sealed fragments
-/
namespace Mcut.Stitch
open Mcut.Hmesh Mcut.Extract Mcut.Preproc
open Mcut.Split (In SplitOf src_some Flat SameFragment FragOptions rotated_map)
open Mcut.Trace (src Round src_of present)
open Mcut.Patches (reversed reversed_corners)
variable {P : Type} {d : P} {m0 m1 m : Mesh P} {base numCut n : Nat} {polys pats polys1 polysS : List (List Nat)} {ks : List Nat} {ver orig : Nat → Nat} {faces cmv : List (Nat × Nat)}
  {at' half : Nat → Nat → Nat} {made : List (Nat × Nat)} {traced : List (List Nat)} {smCount : Nat} {tab : Extract.Tables} {faceOf faceOf2 : Nat → Option Nat}

/-- What the tables for the vertex map say. -/
def VertexTable (m0 : Mesh P) (base nV1 : Nat) (polys pats : List (List Nat)) (ks : List Nat) (at' : Nat → Nat → Nat) (m : Mesh P) (tab : Extract.Tables) : Prop :=
  ∀ v, v < m.nV → ∃ x, vertexOrigin tab v = some x ∧ (v < base → x = some v) ∧ (base ≤ v → v < nV1 → x = none) ∧
    ∀ u, x = some u → u < base ∧ m.pos v = m0.pos u ∧ ∀ k ∈ ks, ∀ h, InSheet polys pats k h → at' k (m0.target h) = v → m0.target h = u

/-- What the polygons of the patches are. -/
def FaceTable (m0 : Mesh P) (n smCount : Nat) (traced polys pats : List (List Nat)) (ks : List Nat) (faceOf faceOf2 : Nat → Option Nat) : Prop :=
  (∀ f, f < smCount → faceOf f ≠ none ∧ faceOf2 f = faceOf f) ∧
  ∀ k ∈ ks, ∀ l, pats[k]? = some l → ∀ j ∈ l, ∃ t p, smCount ≤ t ∧ traced[t]? = some p ∧ faceOf t ≠ none ∧ faceOf2 j = faceOf t ∧ (k < n → polys[j]? = some p) ∧ (n ≤ k → polys[j]? = some (reversed p)) ∧
    Round m0 p ∧ ∀ h ∈ p, LiveH m0 h

theorem sealed_extract (r0 : Reachable d m0) (V : SplitOf d m0 base numCut (traced.take smCount) m1 polys1 ver orig)
    (T : StitchedOf d m0 base numCut n (traced.take smCount) polys pats ks m1 polys1 ver orig m polysS faces cmv at' half made) (X : Sheets m0 numCut polys pats ks) (F : Flat m0 base (traced.take smCount))
    (T1 : Traced m1 polys1) (hsm : smCount ≤ traced.length) (hpos : 0 < smCount) (hvt : VertexTable m0 base m1.nV polys pats ks at' m tab)
    (hft : FaceTable m0 n smCount traced polys pats ks faceOf faceOf2) (hfo : ∀ f j, (f, j) ∈ faces → faceOf2 j ≠ none → faceOrigin tab 0 f = faceOf2 j) (even : numCut % 2 = 0)
    (below above : List Nat) (w : FragOptions) (threads : Option Nat) (ht : ∀ t, threads = some t → 0 < t ∧ polysS.length + 1024 ≤ 2 ^ 32)
    (hrec : below ≠ [] → above ≠ [] → ∀ f, f < smCount → ∃ g, g < smCount ∧ SameFragment m0 base numCut (traced.take smCount) f g ∧ (g ∈ below ∨ g ∈ above)) (s : St P) (hs1 : s.m = m) (hs2 : s.polys = polysS) :
    ∃ frs groups, sealedList d s (sealedArgs m1 base tab below above w) threads = some frs ∧
      SealedListOf d m0 base numCut m1.nV n smCount traced faceOf polys pats ks at' made m polysS (sealedArgs m1 base tab below above w) w groups frs := by
  have hr := T.mesh.1
  have TS := (T.traced r0 V T1 X).1
  have hsl : (traced.take smCount).length = smCount := by rw [List.length_take]; omega
  have hlen : polys1.length = smCount := by rw [V.polygons, List.length_map, hsl]
  obtain ⟨news, e1, e2⟩ := id T.polygons
  have hle : polys1.length ≤ polysS.length := by rw [e1, List.length_append]; omega
  have hsrc : ∀ f, f < smCount → ∃ p, traced[f]? = some p ∧ (traced.take smCount)[f]? = some p ∧ polysS[f]? = some (p.map ver) := by
    intro f hf
    have h1 : traced[f]? = some traced[f] := List.getElem?_eq_getElem (by omega)
    have h2 : (traced.take smCount)[f]? = some traced[f] := by rw [List.getElem?_take_of_lt hf, h1]
    exact ⟨_, h1, h2, T.old_poly V h2⟩
  have hcorn : ∀ f, f < polysS.length → ∀ v ∈ corners m polysS f, v < m.nV := by
    intro f hf v hv
    have : corners m polysS f ∈ polysS.map (fun p => p.map m.target) := by
      unfold corners
      rw [List.getD_eq_getElem?_getD, List.getElem?_eq_getElem hf]
      exact List.mem_map.2 ⟨_, List.getElem_mem hf, rfl⟩
    exact (TS.valid.1 _ this).2.2 v hv
  have hnew : ∀ f, f < polysS.length → smCount ≤ f → ∃ k j : Nat, made[f - smCount]? = some (k, j) ∧ f = polys1.length + (f - smCount) := by
    intro f hf h
    have hl := e2.length_eq
    rw [e1, List.length_append] at hf
    refine ⟨_, _, List.getElem?_eq_getElem (by omega), by omega⟩
  have hface : ∀ f, f < polysS.length → ∃ j, (f, j) ∈ faces ∧ faceOf2 j ≠ none := by
    intro f hf
    by_cases h : f < smCount
    · exact ⟨f, (T.faces f f).2 (.inl ⟨by omega, rfl⟩), by rw [(hft.1 f h).2]; exact (hft.1 f h).1⟩
    · obtain ⟨k, j, hm, hfe⟩ := hnew f hf (by omega)
      obtain ⟨hk, l, hl, hj⟩ := T.made_of (List.mem_of_getElem? hm) X
      obtain ⟨t, p, -, -, t1, t2, -⟩ := hft.2 k hk l hl j hj
      exact ⟨j, (T.faces f j).2 (.inr ⟨_, _, hfe, hm, rfl⟩), by rw [t2]; exact t1⟩
  have hlink : ∀ f, f < polysS.length → below ≠ [] → above ≠ [] → ∃ g, g < polysS.length ∧ Extract.Linked m polysS f g ∧ (g ∈ below ∨ g ∈ above) := by
    intro f hf h1 h2
    obtain ⟨g, g1, g2⟩ := T.reach_source TS V X hf
    obtain ⟨g', p1, p2, p3⟩ := hrec h1 h2 g (by omega)
    exact ⟨g', by omega, linked_trans hr TS hf (by omega) (by omega) g2 (T.link_source r0 V F T1 g1 (by omega) p2), p3⟩
  obtain ⟨frs, groups, h0, h1, h2, h3, h4, h5⟩ := extract_list hr TS (sealedArgs m1 base tab below above w) threads ht (by intro h; rw [h, List.length_nil] at hle; omega)
    (fun _ f hf v hv => by
      obtain ⟨x, hx, -⟩ := hvt v (hcorn f hf v hv)
      show vertexOrigin tab v ≠ none
      rw [hx]; simp)
    (fun _ f hf => by
      obtain ⟨j, j1, j2⟩ := hface f hf
      show faceOrigin tab 0 f ≠ none
      rw [hfo f j j1 j2]; exact j2) (fun a b f hf => hlink f hf a b)
  have cls : ∀ G ∈ groups, ∀ f ∈ G, f < polysS.length ∧ ∀ g, g < polysS.length → Extract.Linked m polysS f g → g ∈ G :=
    fun G hG f hf => ⟨(((h4 G hG).2 f hf f).1 hf).1, fun g hg hL => ((h4 G hG).2 f hf g).2 ⟨hg, hL⟩⟩
  have patchlt : ∀ {k f : Nat}, OfPatch smCount made k f → f < polysS.length := by
    rintro k f ⟨a, j, rfl, ha⟩
    obtain ⟨_, _, -, -, h⟩ := T.new_poly ha
    rw [hlen] at h
    exact (List.getElem?_eq_some_iff.1 h).1
  refine ⟨frs, groups, by unfold sealedList; rw [hs1, hs2]; exact h0, ?_, h2, h3, h4, h5, ?_, ?_, ?_, ?_⟩
  · refine h1.imp ?_
    intro fs c Q
    obtain ⟨⟨vs, C, q1, q2, q3⟩, q4, q5⟩ := Q
    have hvs : ∀ i v : Nat, vs[i]? = some v → v < m.nV := by
      intro i v hi
      obtain ⟨f, hf1, hf2⟩ := (C.used v).1 (List.mem_of_getElem? hi)
      exact hcorn f (C.range f hf1) v hf2
    refine ⟨⟨vs, C, ?_, q2, ?_⟩, ?_, ?_, q4⟩
    · intro i
      rw [q1 i]
      have flag : ∀ v, (sealedArgs m1 base tab below above w).flags[v]? = some true ↔ base ≤ v ∧ v < m1.nV := by
        intro v
        show (markSeam m1 base (some m1.nV))[v]? = some true ↔ _
        unfold markSeam
        rw [List.getElem?_map]
        have hnum : m1.numVertices = m1.nV := by simp [Mesh.numVertices, V.mesh.2.2.1]
        by_cases hv : v < m1.nV
        · rw [List.getElem?_range (by omega)]
          simp [hv]
        · rw [List.getElem?_eq_none (by simp; omega)]
          simp [hv]
      constructor <;> rintro ⟨v, v1, v2⟩
      · exact ⟨v, v1, (flag v).1 v2⟩
      · exact ⟨v, v1, (flag v).2 v2⟩
    · intro hp
      obtain ⟨l1, l2⟩ := q3 hp
      refine ⟨l1, fun i v hi => ?_⟩
      obtain ⟨x, x1, x2, x3, x4⟩ := hvt v (hvs i v hi)
      have := l2 i v hi
      refine ⟨x, by rw [← this]; exact x1, x2, x3, fun u hu => ?_⟩
      obtain ⟨y1, y2, y3⟩ := x4 u hu
      exact ⟨y1, by rw [C.pos i v hi, y2], y3⟩
    · intro i f hi hf
      have hfl := C.range f (List.mem_of_getElem? hi)
      obtain ⟨p, p1, p2, p3⟩ := hsrc f hf
      refine ⟨p, p1, ?_, ?_⟩
      · have := copy_places C hi
        have e : (corners m polysS f).map m.pos = p.map (fun h => m0.pos (m0.target h)) := by
          unfold corners
          rw [List.getD_eq_getElem?_getD, p3, Option.getD_some, List.map_map, List.map_map]
          refine List.map_congr_left (fun h hh => ?_)
          have hin : In (traced.take smCount) h := ⟨p, List.mem_of_getElem? p2, hh⟩
          have hl := V.target_lt hin
          show m.pos (m.target (ver h)) = _
          rw [(T.kept.2.2 _ (V.live h hin)).2.2, T.kept.2.1 _ hl, V.places _ hl, (V.ends h hin).2]
        rw [e] at this
        exact this
      · intro hp
        obtain ⟨l1, l2⟩ := q5 hp
        refine ⟨l1, ?_⟩
        rw [← l2 i f hi]
        show faceOrigin tab 0 f = _
        obtain ⟨g1, g2⟩ := hft.1 f hf
        rw [hfo f f ((T.faces f f).2 (.inl ⟨by omega, rfl⟩)) (by rw [g2]; exact g1), g2]
    · intro i f hi hf
      have hfl := C.range f (List.mem_of_getElem? hi)
      obtain ⟨k, j, hm, hfe⟩ := hnew f hfl hf
      obtain ⟨hk, l, hl, hj⟩ := T.made_of (List.mem_of_getElem? hm) X
      obtain ⟨t, p, t0, t1, t2, t3, t4, t5, t6, t7⟩ := hft.2 k hk l hl j hj
      obtain ⟨p', r, r1, r2, r3⟩ := T.new_poly hm
      rw [← hfe] at r3
      have base' : ((c.1.verticesAroundFace i).map c.1.pos) ~r (p'.map (fun h => m0.pos (m0.target h))) := by
        have h6 := copy_places C hi
        have e : (corners m polysS f).map m.pos = r.map (fun h => m0.pos (m0.target h)) := by
          unfold corners
          rw [List.getD_eq_getElem?_getD, r3, Option.getD_some, List.map_map, List.map_map]
          refine List.map_congr_left (fun h hh => ?_)
          have hin : InSheet polys pats k h := ⟨l, j, p', hl, hj, r1, r2.perm.mem_iff.1 hh⟩
          show m.pos (m.target (half k h)) = _
          rw [(T.ends k hk h hin).2.2, (T.places k hk h hin).2]
        rw [e] at h6
        exact h6.trans (rotated_map _ r2)
      refine ⟨k, j, t, p, hm, t0, t1, ?_, ?_, ?_⟩
      · intro hkn
        rw [t4 hkn] at r1
        obtain rfl := Option.some.inj r1
        exact base'
      · intro hkn
        rw [t5 hkn] at r1
        obtain rfl := Option.some.inj r1
        have := rotated_map m0.pos (reversed_corners r0 t6 t7)
        rw [List.map_map, List.map_reverse, List.map_map] at this
        exact base'.trans this
      · intro hp
        obtain ⟨l1, l2⟩ := q5 hp
        refine ⟨l1, ?_⟩
        rw [← l2 i f hi]
        show faceOrigin tab 0 f = _
        rw [hfo f j ((T.faces f j).2 (.inr ⟨_, _, hfe, hm, rfl⟩)) (by rw [t3]; exact t2), t3]
  · intro G hG f hf hfs g hg hS
    exact (cls G hG f hf).2 g (by omega) (T.link_source r0 V F T1 (by omega) (by omega) hS)
  · rintro G hG f hf k ⟨a, j, e3, ha⟩ g hg
    have hgl := patchlt hg
    obtain ⟨b, j', e4, hb⟩ := hg
    refine (cls G hG f hf).2 g hgl ?_
    rw [e3, e4, ← hlen]
    exact T.link_patch TS X ha hb
  · intro G hG f hf p h hfs hp hh hc
    have hop : opposite h < numCut := by unfold opposite; split <;> omega
    obtain ⟨k, hk, hks⟩ := X.cover (opposite h) hop
    obtain ⟨q, p1, p2, -⟩ := hsrc f hfs
    rw [hp] at p1; obtain rfl := Option.some.inj p1
    obtain ⟨a, j, ha, hL⟩ := T.link_cut TS V X hk hks hop p2 (by rw [opp_back]; exact hh)
    refine ⟨k, hk, hks, fun g hg => ?_⟩
    have hgl := patchlt hg
    obtain ⟨b, j', e4, hb⟩ := hg
    have hal := patchlt (k := k) ⟨a, j, rfl, ha⟩
    refine (cls G hG f hf).2 g hgl (linked_trans hr TS (by omega) (by rw [hlen]; exact hal) hgl hL ?_)
    rw [e4, ← hlen]
    exact T.link_patch TS X ha hb
  · intro G hG
    obtain ⟨f, hf⟩ := List.exists_mem_of_ne_nil _ (h4 G hG).1
    obtain ⟨f1, f2⟩ := cls G hG f hf
    obtain ⟨g, g1, g2⟩ := T.reach_source TS V X f1
    exact ⟨g, f2 g (by omega) g2, by omega⟩

/-- If both meshes have no border, the sealed fragments have none. -/
theorem sealed_closed (r0 : Reachable d m0) (V : SplitOf d m0 base numCut (traced.take smCount) m1 polys1 ver orig)
    (T : StitchedOf d m0 base numCut n (traced.take smCount) polys pats ks m1 polys1 ver orig m polysS faces cmv at' half made) (X : Sheets m0 numCut polys pats ks)
    (T1 : Traced m1 polys1) (even : numCut % 2 = 0) (sc : ∀ h, In (traced.take smCount) h → numCut ≤ h → In (traced.take smCount) (opposite h))
    (cc : ∀ k ∈ ks, ∀ h, InSheet polys pats k h → numCut ≤ h → InSheet polys pats k (opposite h)) {a : Args} {w : FragOptions} {groups : List (List Nat)} {frs : List (Mesh P × Info)}
    (H : SealedListOf d m0 base numCut m1.nV n smCount traced faceOf polys pats ks at' made m polysS a w groups frs) : ∀ c ∈ frs, c.1.isClosed = true := by
  have hr := T.mesh.1
  have TS := (T.traced r0 V T1 X).1
  intro c hc
  obtain ⟨i, hi, rfl⟩ := List.getElem_of_mem hc
  have hl := H.each.length_eq
  have S := (List.forall₂_iff_get.1 H.each).2 i (by omega) hi
  obtain ⟨vs, C, -⟩ := S.copy
  have hG := (H.classes _ (List.getElem_mem (l := groups) (n := i) (by omega))).2
  refine copy_closed hr TS C (fun f hf g hg hL => (hG f hf g).2 ⟨hg, hL⟩) ?_
  intro f hf q hq g hg
  exact T.watertight V X sc cc even (List.mem_of_getElem? hq) hg

end Mcut.Stitch
