import Verif.Spec.C90
import Verif.Props.C24
import Verif.Props.C91

/-!
# C90: the triangulation of a connected component
-/
namespace Mcut.Cdt
open Mcut.Geom Mcut.Hmesh Mcut.Preproc

theorem thirds_append {x : List Nat} (h : x.length = 3) (l : List Nat) : thirds (x ++ l) = x :: thirds l := by
  match x, h with
  | [a, b, c], _ => rfl

theorem thirds_flatten : ∀ (T : List (List Nat)), (∀ t ∈ T, t.length = 3) → thirds T.flatten = T
  | [], _ => rfl
  | t :: T, h => by
    rw [List.flatten_cons, thirds_append (h t (by simp)), thirds_flatten T (fun s hs => h s (by simp [hs]))]

/-- What is needed of the triangles of one face. -/
structure OneFace (f : List Nat) (G : List (List Nat)) : Prop where
  corners : ∀ t ∈ G, t.length = 3 ∧ t.Nodup ∧ ∀ v ∈ t, v ∈ f
  count : G.length = f.length - 2
  once : (G.flatMap dirEdges).Nodup
  rim : ∀ p : Nat × Nat, (p ∈ G.flatMap dirEdges ∧ (p.2, p.1) ∉ G.flatMap dirEdges) ↔ p ∈ dirEdges f

theorem dirEdges_ends {f : List Nat} {p : Nat × Nat} (h : p ∈ dirEdges f) : p.1 ∈ f ∧ p.2 ∈ f := by
  rw [dirEdges_eq] at h
  obtain ⟨i, -, a, b⟩ := cycPairs_mem _ _ h
  exact ⟨List.mem_of_getElem? a, List.mem_of_getElem? b⟩

theorem dirEdges_ne {f : List Nat} (h3 : 2 ≤ f.length) (nd : f.Nodup) {p : Nat × Nat} (h : p ∈ dirEdges f) : p.1 ≠ p.2 := by
  rw [dirEdges_eq] at h
  obtain ⟨i, hi, a, b⟩ := cycPairs_mem _ _ h
  intro e
  rw [e] at a
  have := (List.getElem?_inj hi nd).1 (a.trans b.symm)
  by_cases h' : i + 1 = f.length
  · rw [h', Nat.mod_self] at this; omega
  · rw [Nat.mod_eq_of_lt (by omega)] at this; omega

variable {P : Type}

/-- The faces of a component: no directed edge twice. -/
theorem Component.once {d0 : P} {pts : List P} {fs : List (List Nat)} {cc : Mesh P} (C : Component d0 pts fs cc) : (fs.flatMap dirEdges).Nodup := by
  rw [show (dirEdges : List Nat → _) = cycPairs from funext dirEdges_eq, List.nodup_flatMap]
  refine ⟨fun f hf => cycPairs_nodup f (C.good f hf).2.1, ?_⟩
  rw [List.pairwise_iff_getElem]
  intro i j hi hj hij p hp hq
  have := apart C.built (List.getElem?_eq_getElem hi) (List.getElem?_eq_getElem hj) hp hq
  omega

/-- A triangle is its own triangulation. -/
theorem OneFace.triangle {d0 : P} {pts : List P} {fs : List (List Nat)} {cc : Mesh P} (C : Component d0 pts fs cc) {i : Nat} {f : List Nat} (hi : fs[i]? = some f) (h3 : f.length = 3) : OneFace f [cc.verticesAroundFace i] := by
  have gf := C.1 f (List.mem_of_getElem? hi)
  have e := vaf C.built hi
  have nd : (cc.verticesAroundFace i).Nodup := by rw [e, List.nodup_rotate]; exact gf.2.1
  have m : ∀ p, p ∈ [cc.verticesAroundFace i].flatMap dirEdges ↔ p ∈ dirEdges f := fun p => by
    rw [List.flatMap_singleton, dirEdges_eq, dirEdges_eq]; exact vaf_pairs C.built hi p
  refine ⟨?_, by simp [h3], ?_, ?_⟩
  · intro t ht
    rw [List.mem_singleton] at ht
    subst ht
    exact ⟨by rw [e, List.length_rotate, h3], nd, fun v hv => by rwa [e, List.mem_rotate] at hv⟩
  · rw [List.flatMap_singleton, dirEdges_eq]; exact cycPairs_nodup _ nd
  · intro p
    rw [m, m]
    refine ⟨fun h => h.1, fun h => ⟨h, fun h' => ?_⟩⟩
    rw [dirEdges_eq] at h h'
    exact back_forth gf h h'

/-- Triangles that fill a polygon, with the corners of the face. -/
theorem OneFace.filled {d0 : P} {pts : List P} {fs : List (List Nat)} {cc : Mesh P} (C : Component d0 pts fs cc) {i : Nat} {f : List Nat} (hi : fs[i]? = some f) {out : List (List Nat)} (F : Fills f.length out) :
    OneFace f (out.map (List.map (fun v => (cc.verticesAroundFace i).getD v 0))) := by
  have gf := C.1 f (List.mem_of_getElem? hi)
  have e := vaf C.built hi
  obtain ⟨fv, hfv⟩ : ∃ fv, fv = cc.verticesAroundFace i := ⟨_, rfl⟩
  have pairs := vaf_pairs C.built hi
  rw [← hfv] at e pairs ⊢
  have nd : fv.Nodup := by rw [e, List.nodup_rotate]; exact gf.2.1
  have fl : fv.length = f.length := by rw [e, List.length_rotate]
  obtain ⟨g, hg⟩ : ∃ g : Nat → Nat, g = fun v => fv.getD v 0 := ⟨_, rfl⟩
  rw [← hg]
  have g_at : ∀ v < f.length, fv[v]? = some (g v) := by
    intro v hv
    rw [hg]; simp only
    rw [List.getD_eq_getElem?_getD, List.getElem?_eq_getElem (by omega)]; rfl
  have inj : ∀ v w, v < f.length → w < f.length → g v = g w → v = w := by
    intro v w hv hw h
    exact (List.getElem?_inj (by omega) nd).1 ((g_at v hv).trans (by rw [h]; exact (g_at w hw).symm))
  have lt : ∀ t ∈ out, ∀ v ∈ t, v < f.length := fun t ht v hv => (F.corners t ht).1.2.2 v hv
  have ed : (out.map (List.map g)).flatMap dirEdges = (out.flatMap dirEdges).map (fun p => (g p.1, g p.2)) := by
    rw [List.flatMap_map, List.map_flatMap]
    congr 1
    funext t
    rw [dirEdges_eq, dirEdges_eq, cyc_map]
  have lte : ∀ p ∈ out.flatMap dirEdges, p.1 < f.length ∧ p.2 < f.length := by
    intro p hp
    obtain ⟨t, ht, h⟩ := List.mem_flatMap.1 hp
    have := dirEdges_ends h
    exact ⟨lt t ht _ this.1, lt t ht _ this.2⟩
  have mem : ∀ a b, a < f.length → b < f.length → ((g a, g b) ∈ (out.map (List.map g)).flatMap dirEdges ↔ (a, b) ∈ out.flatMap dirEdges) := by
    intro a b ha hb
    rw [ed, List.mem_map]
    constructor
    · rintro ⟨q, hq, e⟩
      obtain ⟨e1, e2⟩ := Prod.mk.inj e
      have := lte q hq
      rw [← inj _ _ this.1 ha e1, ← inj _ _ this.2 hb e2]
      exact hq
    · intro h; exact ⟨_, h, rfl⟩
  refine ⟨?_, ?_, ?_, ?_⟩
  · intro t ht
    obtain ⟨s, hs, rfl⟩ := List.mem_map.1 ht
    have := F.corners s hs
    refine ⟨by rw [List.length_map]; exact this.2, this.1.2.1.map_on fun x hx y hy h => inj _ _ (lt s hs x hx) (lt s hs y hy) h, ?_⟩
    intro v hv
    obtain ⟨x, hx, rfl⟩ := List.mem_map.1 hv
    have := List.mem_of_getElem? (g_at x (lt s hs x hx))
    rwa [e, List.mem_rotate] at this
  · rw [List.length_map]; have := F.count; omega
  · rw [ed]
    refine F.once.map_on fun x hx y hy h => ?_
    obtain ⟨h1, h2⟩ := Prod.mk.inj h
    exact Prod.ext (inj _ _ (lte x hx).1 (lte y hy).1 h1) (inj _ _ (lte x hx).2 (lte y hy).2 h2)
  · intro p
    rw [dirEdges_eq, ← pairs]
    constructor
    · rintro ⟨h1, h2⟩
      have h1' := h1
      rw [ed] at h1
      obtain ⟨⟨a, b⟩, hq, rfl⟩ := List.mem_map.1 h1
      obtain ⟨la, lb⟩ := lte _ hq
      simp only at *
      rw [mem b a lb la] at h2
      obtain ⟨-, rfl⟩ := (F.rim a b).1 ⟨hq, h2⟩
      rw [← dirEdges_eq]
      unfold dirEdges
      refine List.mem_map.2 ⟨a, List.mem_range.2 (by omega), ?_⟩
      rw [hg, fl]
    · intro h
      obtain ⟨a, ha, h1, h2⟩ := cycPairs_mem _ _ h
      rw [fl] at ha h2
      have hb := Nat.mod_lt (a + 1) (show 0 < f.length by omega)
      rw [g_at a ha] at h1
      rw [g_at _ hb] at h2
      obtain ⟨x, y⟩ := p
      simp only [Option.some.injEq] at h1 h2
      subst h1 h2
      simp only
      rw [mem _ _ ha hb, mem _ _ hb ha]
      exact (F.rim _ _).2 ⟨ha, rfl⟩

/-- Two faces have no directed edge in common. -/
theorem faces_apart {fs : List (List Nat)} (nd : (fs.flatMap dirEdges).Nodup) {i j : Nat} {f g : List Nat} (hi : fs[i]? = some f) (hj : fs[j]? = some g) (hij : i ≠ j) : ∀ p ∈ dirEdges f, p ∉ dirEdges g := by
  intro p hp hq
  rw [List.nodup_flatMap] at nd
  have key := nd.2
  obtain ⟨li, rfl⟩ := List.getElem?_eq_some_iff.1 hi
  obtain ⟨lj, rfl⟩ := List.getElem?_eq_some_iff.1 hj
  rcases Nat.lt_or_gt_of_ne hij with h | h
  · exact List.pairwise_iff_getElem.1 key i j li lj h hp hq
  · exact List.pairwise_iff_getElem.1 key j i lj li h hq hp

/-- Faces that are triangulated one by one. -/
theorem all_faces {fs : List (List Nat)} (good : ∀ f ∈ fs, 3 ≤ f.length ∧ f.Nodup) (nd : (fs.flatMap dirEdges).Nodup) (S : Simple fs) {G : Nat → List (List Nat)} (H : ∀ i f, fs[i]? = some f → OneFace f (G i)) {order : List Nat} (ho : order.Perm (List.range fs.length)) :
    Triangulated fs (order.flatMap G) := by
  have get : ∀ i ∈ order, ∃ f, fs[i]? = some f := fun i hi => ⟨_, List.getElem?_eq_getElem (List.mem_range.1 (ho.mem_iff.1 hi))⟩
  have inorder : ∀ i f, fs[i]? = some f → i ∈ order := fun i f h => ho.mem_iff.2 (List.mem_range.2 (List.getElem?_eq_some_iff.1 h).1)
  have me : ∀ p, p ∈ (order.flatMap G).flatMap dirEdges ↔ ∃ (i : Nat) (f : List Nat), fs[i]? = some f ∧ p ∈ (G i).flatMap dirEdges := by
    intro p
    rw [List.flatMap_assoc, List.mem_flatMap]
    constructor
    · rintro ⟨i, hi, h⟩
      obtain ⟨f, e⟩ := get i hi
      exact ⟨i, f, e, h⟩
    · rintro ⟨i, f, e, h⟩
      exact ⟨i, inorder i f e, h⟩
  have mf : ∀ p, p ∈ fs.flatMap dirEdges ↔ ∃ (i : Nat) (f : List Nat), fs[i]? = some f ∧ p ∈ dirEdges f := by
    intro p
    rw [List.mem_flatMap]
    constructor
    · rintro ⟨f, hf, h⟩
      obtain ⟨i, e⟩ := List.mem_iff_getElem?.1 hf
      exact ⟨i, f, e, h⟩
    · rintro ⟨i, f, e, h⟩
      exact ⟨f, List.mem_of_getElem? e, h⟩
  have apart := fun (i j : Nat) (f g : List Nat) (hi : fs[i]? = some f) (hj : fs[j]? = some g) (hij : i ≠ j) => faces_apart nd hi hj hij
  have ends : ∀ (i : Nat) (f : List Nat), fs[i]? = some f → ∀ p ∈ (G i).flatMap dirEdges, p.1 ∈ f ∧ p.2 ∈ f ∧ p.1 ≠ p.2 := by
    intro i f hi p hp
    obtain ⟨t, ht, h⟩ := List.mem_flatMap.1 hp
    obtain ⟨h1, h2, h3⟩ := (H i f hi).corners t ht
    have := dirEdges_ends h
    exact ⟨h3 _ this.1, h3 _ this.2, dirEdges_ne (by omega) h2 h⟩
  -- an edge between corners of two faces is an edge of both, in one direction each
  have both : ∀ (i j : Nat) (f g : List Nat), fs[i]? = some f → fs[j]? = some g → i ≠ j → ∀ a b, a ≠ b → a ∈ f → b ∈ f → a ∈ g → b ∈ g →
      (a, b) ∈ dirEdges f ∧ (b, a) ∈ dirEdges g ∨ (b, a) ∈ dirEdges f ∧ (a, b) ∈ dirEdges g := by
    intro i j f g hi hj hij a b hab fa fb ga gb
    rcases S i j f g hi hj hij a b hab fa fb ga gb with h | h
    · rcases S j i g f hj hi (Ne.symm hij) a b hab ga gb fa fb with h' | h'
      · exact absurd h' (apart i j f g hi hj hij _ h)
      · exact .inl ⟨h, h'⟩
    · rcases S j i g f hj hi (Ne.symm hij) a b hab ga gb fa fb with h' | h'
      · exact .inr ⟨h, h'⟩
      · exact absurd h' (apart i j f g hi hj hij _ h)
  have disj : ∀ (i j : Nat) (f g : List Nat), fs[i]? = some f → fs[j]? = some g → i ≠ j → ∀ p ∈ (G i).flatMap dirEdges, p ∉ (G j).flatMap dirEdges := by
    intro i j f g hi hj hij p hp hq
    obtain ⟨f1, f2, ne⟩ := ends i f hi p hp
    obtain ⟨g1, g2, -⟩ := ends j g hj p hq
    rcases both i j f g hi hj hij _ _ ne f1 f2 g1 g2 with ⟨-, h⟩ | ⟨h, -⟩
    · exact ((H j g hj).rim (p.2, p.1)).2 h |>.2 hq
    · exact ((H i f hi).rim (p.2, p.1)).2 h |>.2 hp
  refine ⟨?_, ?_, ?_, ?_, ?_⟩
  · intro t ht
    obtain ⟨i, hi, h⟩ := List.mem_flatMap.1 ht
    obtain ⟨f, e⟩ := get i hi
    obtain ⟨h1, h2, h3⟩ := (H i f e).corners t h
    exact ⟨h1, h2, f, List.mem_of_getElem? e, h3⟩
  · rw [(ho.flatMap_right G).length_eq, List.length_flatMap]
    congr 1
    apply List.ext_getElem
    · simp
    · intro i h1 h2
      simp only [List.getElem_map, List.getElem_range]
      exact (H i _ (List.getElem?_eq_getElem (by simpa using h2))).count
  · rw [List.flatMap_assoc, List.nodup_flatMap]
    constructor
    · intro i hi
      obtain ⟨f, e⟩ := get i hi
      exact (H i f e).once
    · have : order.Nodup := ho.nodup_iff.2 List.nodup_range
      refine this.imp_of_mem ?_
      intro i j hi hj hij p hp hq
      obtain ⟨f, ef⟩ := get i hi
      obtain ⟨g, eg⟩ := get j hj
      exact disj i j f g ef eg hij p hp hq
  · intro p hp
    obtain ⟨i, f, e, h⟩ := (mf p).1 hp
    exact (me p).2 ⟨i, f, e, (((H i f e).rim p).2 h).1⟩
  · intro a b
    constructor
    · rintro ⟨h1, h2⟩
      obtain ⟨i, f, e, h⟩ := (me _).1 h1
      refine ⟨(mf _).2 ⟨i, f, e, ((H i f e).rim (a, b)).1 ⟨h, fun h' => h2 ((me _).2 ⟨i, f, e, h'⟩)⟩⟩, fun h' => ?_⟩
      obtain ⟨j, g, eg, hg⟩ := (mf _).1 h'
      exact h2 ((me _).2 ⟨j, g, eg, (((H j g eg).rim (b, a)).2 hg).1⟩)
    · rintro ⟨h1, h2⟩
      obtain ⟨i, f, e, h⟩ := (mf _).1 h1
      have r := ((H i f e).rim (a, b)).2 h
      refine ⟨(me _).2 ⟨i, f, e, r.1⟩, fun h' => ?_⟩
      obtain ⟨j, g, eg, hg⟩ := (me _).1 h'
      have hij : i ≠ j := by
        rintro rfl
        obtain rfl := Option.some.inj (e.symm.trans eg)
        exact r.2 hg
      obtain ⟨g1, g2, ne⟩ := ends j g eg _ hg
      obtain ⟨f1, f2⟩ := dirEdges_ends h
      rcases both i j f g e eg hij a b (Ne.symm ne) f1 f2 g2 g1 with ⟨-, h''⟩ | ⟨h'', -⟩
      · exact h2 ((mf _).2 ⟨j, g, eg, h''⟩)
      · exact h2 ((mf _).2 ⟨i, f, e, h''⟩)

theorem Simple.noChord {N : Nat} {fs : List (List Nat)} (S : Simple fs) (good : ∀ f ∈ fs, Preproc.GoodFace N f) (nd : (fs.flatMap dirEdges).Nodup) (i : Nat) : NoChord fs i := by
  intro f hf g hg hac p hp p1 p2
  have hi : fs[i]? = some f := hf
  have gf := good f (List.mem_of_getElem? hi)
  have gg := good g hg
  obtain ⟨j, hj⟩ := List.mem_iff_getElem?.1 hg
  by_cases hij : i = j
  · subst hij
    obtain rfl := Option.some.inj (hi.symm.trans hj)
    obtain ⟨q, h1, h2⟩ := hac
    rw [dirEdges_eq] at h1 h2
    exact (back_forth gf h1 h2).elim
  · obtain ⟨g1, g2⟩ := dirEdges_ends hp
    rcases S i j f g hi hj hij _ _ (dirEdges_ne (by have := gg.1; omega) gg.2.1 hp) p1 p2 g1 g2 with h | h
    · exact absurd hp (faces_apart nd hi hj hij _ h)
    · exact h

variable {K : Type} [Field K] [LinearOrder K] [IsStrictOrderedRing K] {D F : Type}

/-- C90, for faces that are filled. -/
theorem component_filled {pts : List (V3 K)} {fs : List (List Nat)} {cc : Mesh (V3 K)} (C : Component ⟨0, 0, 0⟩ pts fs cc) (S : Simple fs)
    {sq : K → K} {big : K} {walk : Nat → St → Nat → Nat} {pick : Nat → List (Nat × Nat) → Nat × Nat}
    {c : CC.Comp D F} (V : Shown sq big walk pick fs cc c)
    (FL : ∀ (i : Nat) (f : List Nat), fs[i]? = some f → f.length ≠ 3 → ∀ out, triangulateFace sq big (walk i) (pick i) cc i = some out → c.tri i = out.flatten → Fills f.length out) {t m : List Nat} (h : CC.Corresponds c t m) :
    Triangulated fs (thirds t) ∧ t = (thirds t).flatten ∧ (∀ x ∈ thirds t, Preproc.GoodFace pts.length x) ∧ (addFaces (addVertices (Mesh.empty (⟨0, 0, 0⟩ : V3 K)) pts) (thirds t)).2 = true := by
  have nd := C.once
  have good : ∀ f ∈ fs, 3 ≤ f.length ∧ f.Nodup := fun f hf => ⟨(C.1 f hf).1, (C.1 f hf).2.1⟩
  have vis : ∀ i f, fs[i]? = some f → c.faces.getD i [] = cc.verticesAroundFace i := by
    intro i f hi
    rw [V.faces, List.getD_eq_getElem?_getD, List.getElem?_map, List.getElem?_range (List.getElem?_eq_some_iff.1 hi).1]
    rfl
  have each : ∀ i, ∃ G, ∀ f, fs[i]? = some f → OneFace f G ∧ CC.trianglesOf c i = G.flatten := by
    intro i
    by_cases hex : ∃ f, fs[i]? = some f
    swap
    · exact ⟨[], fun f hf => absurd ⟨f, hf⟩ hex⟩
    obtain ⟨f, hi⟩ := hex
    have fl : (c.faces.getD i []).length = f.length := by rw [vis i f hi, vaf C.built hi, List.length_rotate]
    by_cases h3 : f.length = 3
    · refine ⟨[cc.verticesAroundFace i], fun f' hf' => ?_⟩
      obtain rfl := Option.some.inj (hi.symm.trans hf')
      refine ⟨.triangle C hi h3, ?_⟩
      unfold CC.trianglesOf
      rw [if_pos (fl.trans h3), vis i _ hi]
      simp
    · obtain ⟨out, e1, e2⟩ := V.tri i f hi h3
      have F' := FL i f hi h3 out e1 e2
      refine ⟨out.map (List.map (fun v => (cc.verticesAroundFace i).getD v 0)), fun f' hf' => ?_⟩
      obtain rfl := Option.some.inj (hi.symm.trans hf')
      refine ⟨.filled C hi F', ?_⟩
      unfold CC.trianglesOf
      rw [if_neg (by omega), e2, List.map_flatten, vis i _ hi]
  choose G hG using each
  obtain ⟨order, ho, ht, -⟩ := h
  have cl : c.faces.length = fs.length := by rw [V.faces]; simp
  rw [cl] at ho
  have T := all_faces good nd S (G := G) (fun i f hi => (hG i f hi).1) ho
  have tt : t = (order.flatMap G).flatten := by
    rw [ht, List.flatten_eq_flatMap, List.flatMap_assoc]
    refine List.flatMap_congr fun i hi => ?_
    have hl := List.mem_range.1 (ho.mem_iff.1 hi)
    rw [(hG i _ (List.getElem?_eq_getElem hl)).2, List.flatten_eq_flatMap]
  have e : thirds t = order.flatMap G := by rw [tt, thirds_flatten _ fun x hx => (T.corners x hx).1]
  rw [e]
  refine ⟨T, tt, ?_, ?_⟩
  · intro x hx
    obtain ⟨h1, h2, f, hf, h3⟩ := T.corners x hx
    exact ⟨by omega, h2, fun v hv => (C.1 f hf).2.2 v (h3 v hv)⟩
  · refine (addFaces_spec _ [] _ (built_vertices _ _) ?_ (by simp)).1.2 ?_
    · intro x hx
      obtain ⟨h1, h2, f, hf, h3⟩ := T.corners x hx
      exact ⟨by omega, h2, fun v hv => (C.1 f hf).2.2 v (h3 v hv)⟩
    · have := T.once
      rw [show (dirEdges : List Nat → _) = cycPairs from funext dirEdges_eq] at this
      simpa using this

/-- C90, for a square root that is good enough. -/
theorem component_exact {pts : List (V3 K)} {fs : List (List Nat)} {cc : Mesh (V3 K)} (C : Component ⟨0, 0, 0⟩ pts fs cc) (S : Simple fs)
    {sq : K → K} {big : K} (FL : ∀ (i : Nat) (f : List Nat), fs[i]? = some f → f.length ≠ 3 → (Flat (corners cc i) ∧ Exact sq big (corners cc i)) ∧ ∃ g ∈ fs, Across f g)
    (walk : Nat → St → Nat → Nat) {pick : Nat → List (Nat × Nat) → Nat × Nat} (hpick : ∀ i l, l ≠ [] → pick i l ∈ l)
    {c : CC.Comp D F} (V : Shown sq big walk pick fs cc c) {t m : List Nat} (h : CC.Corresponds c t m) :
    Triangulated fs (thirds t) ∧ t = (thirds t).flatten ∧ (∀ x ∈ thirds t, Preproc.GoodFace pts.length x) ∧ (addFaces (addVertices (Mesh.empty (⟨0, 0, 0⟩ : V3 K)) pts) (thirds t)).2 = true := by
  refine component_filled C S V (fun i f hi h3 out e1 _ => ?_) h
  obtain ⟨⟨fl1, fl2⟩, g, hg, hac⟩ := FL i f hi h3
  have key := face_exact C hi (S.noChord C.1 C.once i) fl2 fl1 (walk i) (hpick i)
  rw [e1] at key
  rcases key with ⟨out', e, ⟨F', -⟩ | ⟨hno, -⟩⟩ | ⟨e, -⟩
  · obtain rfl := Option.some.inj e
    exact F'
  · exact absurd hac (hno g hg)
  · cases e

/-- **C90**, for all faces: they need not be flat, and corners may be at the same place; a face is triangulated or skipped as a whole (C91), and if none is skipped, the triangulation is the component with its faces cut by diagonals. -/
theorem C90_any_partial {pts : List (V3 K)} {fs : List (List Nat)} {cc : Mesh (V3 K)} (C : Component ⟨0, 0, 0⟩ pts fs cc) (S : Simple fs)
    {sq : K → K} (hsq : ∀ x, 0 ≤ x → 0 ≤ sq x ∧ sq x * sq x = x) (big : K) (walk : Nat → St → Nat → Nat) {pick : Nat → List (Nat × Nat) → Nat × Nat} (hpick : ∀ i l, l ≠ [] → pick i l ∈ l)
    {c : CC.Comp D F} (V : Shown sq big walk pick fs cc c) (all : ∀ (i : Nat) (f : List Nat), fs[i]? = some f → f.length ≠ 3 → c.tri i ≠ [] ∧ ∃ g ∈ fs, Across f g) {t m : List Nat} (h : CC.Corresponds c t m) :
    Triangulated fs (thirds t) ∧ t = (thirds t).flatten ∧ (∀ x ∈ thirds t, Preproc.GoodFace pts.length x) ∧ (addFaces (addVertices (Mesh.empty (⟨0, 0, 0⟩ : V3 K)) pts) (thirds t)).2 = true := by
  refine component_filled C S V (fun i f hi h3 out e1 e2 => ?_) h
  obtain ⟨ne, g, hg, hac⟩ := all i f hi h3
  obtain ⟨flipped, Q, -, key⟩ := C91_face_partial C hi (S.noChord C.1 C.once i) hsq big (walk i) (hpick i)
  rw [e1] at key
  rcases key with ⟨R, out', ts, -, e, -, -, F' | ⟨hno, -⟩⟩ | ⟨R, -, -, e⟩ | ⟨e, -⟩
  · obtain rfl := Option.some.inj e
    exact F'
  · exact absurd hac (hno g hg)
  · obtain rfl := Option.some.inj e
    exact absurd e2 ne
  · cases e

/-- **C90.** The triangulation of a component, as the client gets it, is the component with its faces cut by diagonals: whatever the order of the threads, it is a mesh that is consistently oriented, with the edges of the component in the same direction, the same border, `n - 2` triangles for a
face with `n` corners, and it can be put together again by the mesh operations. Missing: as in C89; faces without neighbours. -/
theorem C90_component_partial {pts : List (V3 K)} {fs : List (List Nat)} {cc : Mesh (V3 K)} (C : Component ⟨0, 0, 0⟩ pts fs cc) (S : Simple fs)
    {sq : K → K} (hsq : ∀ x, 0 ≤ x → 0 ≤ sq x ∧ sq x * sq x = x) (FL : ∀ (i : Nat) (f : List Nat), fs[i]? = some f → f.length ≠ 3 → Flat (corners cc i) ∧ ∃ g ∈ fs, Across f g)
    (big : K) (walk : Nat → St → Nat → Nat) {pick : Nat → List (Nat × Nat) → Nat × Nat} (hpick : ∀ i l, l ≠ [] → pick i l ∈ l)
    {c : CC.Comp D F} (V : Shown sq big walk pick fs cc c) {t m : List Nat} (h : CC.Corresponds c t m) :
    Triangulated fs (thirds t) ∧ t = (thirds t).flatten ∧ (∀ x ∈ thirds t, Preproc.GoodFace pts.length x) ∧ (addFaces (addVertices (Mesh.empty (⟨0, 0, 0⟩ : V3 K)) pts) (thirds t)).2 = true := by
  refine component_exact C S (fun i f hi h3 => ⟨⟨(FL i f hi h3).1, exact_of_root hsq big (FL i f hi h3).1 ?_⟩, (FL i f hi h3).2⟩) walk hpick V h
  have := (C.1 f (List.mem_of_getElem? hi)).1
  rw [corners, List.length_map, vaf C.built hi, List.length_rotate]
  omega

/-- The same for what the kernel puts out: every copy of polygons with at least three different corners (fragments C78, patches C81, seams C74, sealed fragments C84, all as `CopyOf`) is a component, and its triangulation is its faces cut by diagonals. -/
theorem C90_copy_partial {m : Mesh (V3 K)} {polys : List (List Nat)} {vs js : List Nat} {cc : Mesh (V3 K)} (C : Extract.CopyOf ⟨0, 0, 0⟩ m polys cc vs js)
    (good : ∀ f ∈ js, 3 ≤ (Extract.corners m polys f).length ∧ (Extract.corners m polys f).Nodup) (S : Simple (facesOf cc))
    {sq : K → K} (hsq : ∀ x, 0 ≤ x → 0 ≤ sq x ∧ sq x * sq x = x) (big : K) (walk : Nat → St → Nat → Nat) {pick : Nat → List (Nat × Nat) → Nat × Nat} (hpick : ∀ i l, l ≠ [] → pick i l ∈ l)
    {c : CC.Comp D F} (V : Shown sq big walk pick (facesOf cc) cc c)
    (all : ∀ (i : Nat) (f : List Nat), (facesOf cc)[i]? = some f → f.length ≠ 3 → c.tri i ≠ [] ∧ ∃ g ∈ facesOf cc, Across f g) {t f : List Nat} (h : CC.Corresponds c t f) :
    Triangulated (facesOf cc) (thirds t) ∧ t = (thirds t).flatten ∧ (∀ x ∈ thirds t, Preproc.GoodFace vs.length x) ∧ (addFaces (addVertices (Mesh.empty (⟨0, 0, 0⟩ : V3 K)) (vs.map m.pos)) (thirds t)).2 = true := by
  have := C90_any_partial (component_of_copy C good) S hsq big walk hpick V all h
  rwa [List.length_map] at this

/-! ## Example -/

set_option synthInstance.maxSize 4096 in
set_option synthInstance.maxHeartbeats 400000 in
theorem el_simple : Simple elFaces := by
  have key : ∀ f ∈ elFaces, ∀ g ∈ elFaces, f ≠ g → ∀ a ∈ f, ∀ b ∈ f, a ≠ b → a ∈ g → b ∈ g → (a, b) ∈ dirEdges f ∨ (b, a) ∈ dirEdges f := by decide +kernel
  have nd : elFaces.Nodup := by decide
  intro i j f g hi hj hij a b hab fa fb ga gb
  refine key f (List.mem_of_getElem? hi) g (List.mem_of_getElem? hj) ?_ a fa b fb hab ga gb
  rintro rfl
  exact hij ((List.getElem?_inj (List.getElem?_eq_some_iff.1 hi).1 nd).1 (hi.trans hj.symm))

/-- The component with the L-shaped face, as a query sees it. -/
def elShown : CC.Comp Nat Nat :=
  { CC.bigComp 2 with
    faces := (List.range elFaces.length).map (elSpace ℚ).verticesAroundFace
    tri := fun i => ((triangulateFace elRoot 1000000 elSearch (fun l => l.headD (0, 0)) (elSpace ℚ) i).getD []).flatten
    fmap := [0, 1, 2, 3, 4, 5, 6] }

theorem el_normal : polygonNormal (corners (elSpace ℚ) 0) = ⟨0, 0, 24⟩ := by
  rw [elSpace_corners]
  norm_num [polygonNormal, normalFrom, add3, Geom.cross, sub3]

theorem el_flat : Flat (corners (elSpace ℚ) 0) := by
  have e := el_normal
  refine ⟨?_, ?_, ?_, ?_⟩
  · rw [elSpace_corners]; decide +kernel
  · rw [e, elSpace_corners]
    unfold SamePlane; decide +kernel
  · rw [e]; decide +kernel
  · rw [e]; unfold Singular; decide +kernel

set_option synthInstance.maxSize 4096 in
set_option synthInstance.maxHeartbeats 400000 in
theorem el_exact : Exact elRoot 1000000 (corners (elSpace ℚ) 0) := by
  refine ⟨?_, ?_⟩
  · rw [el_normal]; unfold IsLength; decide +kernel
  · rw [elSpace_corners]
    have key : ∀ R ∈ [flattened elRoot [⟨0, 0, 0⟩, ⟨4, 0, 0⟩, ⟨4, 2, 0⟩, ⟨2, 2, 0⟩, ⟨2, 4, 0⟩, ⟨0, 4, 0⟩], (flattened elRoot [⟨0, 0, 0⟩, ⟨4, 0, 0⟩, ⟨4, 2, 0⟩, ⟨2, 2, 0⟩, ⟨2, 4, 0⟩, ⟨0, 4, 0⟩]).reverse],
        R.length = 6 ∧ 0 < orient2d (places elRoot 1000000 R 0) (places elRoot 1000000 R 1) (places elRoot 1000000 R 2) ∧
        (∀ v < 9, 3 ≤ v → 0 < orient2d (places elRoot 1000000 R 0) (places elRoot 1000000 R 1) (places elRoot 1000000 R v) ∧ 0 < orient2d (places elRoot 1000000 R 1) (places elRoot 1000000 R 2) (places elRoot 1000000 R v) ∧
          0 < orient2d (places elRoot 1000000 R 2) (places elRoot 1000000 R 0) (places elRoot 1000000 R v)) ∧
        ∀ v < 9, 3 ≤ v → ∀ v' < 9, 3 ≤ v' → (places elRoot 1000000 R v).x = (places elRoot 1000000 R v').x ∧ (places elRoot 1000000 R v).y = (places elRoot 1000000 R v').y → v = v' := by decide +kernel
    intro R hR
    obtain ⟨l, h1, h2, h3⟩ := key R (by simpa using hR)
    rw [l]
    exact ⟨h1, fun v a b => h2 v b a, fun v v' a a' b b' e => h3 v b a v' b' a' (by rw [e]; exact ⟨rfl, rfl⟩)⟩

/-- The component with the L-shaped face and six triangles becomes ten triangles. -/
theorem C90_demo : ∃ t m, CC.Corresponds elShown t m ∧ m = [0, 0, 0, 0, 1, 2, 3, 4, 5, 6] ∧ (thirds t).length = 10 ∧ Triangulated elFaces (thirds t) := by
  refine ⟨(List.range 7).flatMap (CC.trianglesOf elShown), (List.range 7).flatMap (fun f => List.replicate ((CC.trianglesOf elShown f).length / 3) (CC.userFace elShown (elShown.fmap.getD f 0))), ⟨List.range 7, List.Perm.refl _, rfl, rfl⟩, by decide +kernel, by decide +kernel, ?_⟩
  have three : ∀ (i : Nat) (f : List Nat), elFaces[i]? = some f → f.length ≠ 3 → i = 0 ∧ f = [5, 0, 1, 2, 3, 4] := by
    intro i f hi h3
    have hl := (List.getElem?_eq_some_iff.1 hi).1
    have : ∀ i < 7, ∀ f ∈ elFaces[i]?, f.length ≠ 3 → i = 0 ∧ f = [5, 0, 1, 2, 3, 4] := by decide +kernel
    exact this i hl f hi h3
  have V : Shown elRoot 1000000 (fun _ => elSearch) (fun _ l => l.headD (0, 0)) elFaces (elSpace ℚ) elShown := by
    refine ⟨rfl, fun i f hi h3 => ?_⟩
    obtain ⟨rfl, rfl⟩ := three i f hi h3
    obtain ⟨out, e, -⟩ := C89_demo
    exact ⟨out, e, by simp only [elShown]; rw [e]; rfl⟩
  refine (component_exact (elSpace_component ℚ) el_simple (fun i f hi h3 => ?_) (fun _ => elSearch) (fun _ l hl => ?_) V ⟨List.range 7, List.Perm.refl _, rfl, rfl⟩).1
  · obtain ⟨rfl, rfl⟩ := three i f hi h3
    exact ⟨⟨el_flat, el_exact⟩, [1, 0, 6], by decide, by unfold Across; decide⟩
  · cases l with
    | nil => exact absurd rfl hl
    | cons x l => exact List.mem_cons_self

/-- The example as a copy of polygons. -/
theorem C90_copy_demo : Extract.CopyOf ⟨0, 0, 0⟩ (elSpace ℚ) ((List.range 7).map (elSpace ℚ).fh) (elSpace ℚ) (List.range 7) (List.range 7) :=
  component_copy (elSpace_component ℚ) (fun v hv => by
    have : ∀ v < 7, ∃ f ∈ elFaces, v ∈ f := by decide
    exact this v hv)

end Mcut.Cdt
