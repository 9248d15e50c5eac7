import Verif.Lemmas.C81Save
import Verif.Props.C60

/-! Lemmas for C81: the patches of the cut mesh are saved. -/
namespace Mcut.Patches
open Mcut.Hmesh Mcut.Extract Mcut.Registry Mcut.CutEdges Mcut.Boundary Mcut.Trace Mcut.Split Mcut.CutPaths
variable {P : Type} {d : P} {ps : Mesh P} {base : Nat} {pts : Nat → List Nat} {sort : Nat → Nat → List Nat → List Nat} {edges : List Nat} {c : CutEdges.St P} {st : Boundary.St P}
  {pieces : Nat → List Nat} {reg : List (Nat × Nat)} {smV smF n : Nat} {o : Out} {T : Nat → List Nat} {poly : Nat → List (List Nat)}

theorem CutFacts.sound (C : CutFacts d ps smV smF base pts sort edges c st pieces reg n o T poly) (one : SimpleEdges ps)
    (cutOne : ∀ f g a b v w, a ∈ c.faceEdges f → b ∈ c.faceEdges g → Joins c.m0 a v w → Joins c.m0 b v w → a = b) : Sound st.m0 o.smCount o.polygons := by
  constructor
  · intro i p hi hp
    obtain ⟨f, -, -, f3, f4⟩ := C.face hi hp
    have S := C.F.sub f f3
    exact ⟨S.round p f4, fun h hh => S.live h (List.mem_flatten.2 ⟨p, f4, hh⟩), C.simple i p hi hp⟩
  · intro i j p q x y hi hj hp hq hx hy hs ht
    obtain ⟨f, -, -, f3, f4⟩ := C.face hi hp
    obtain ⟨g, -, -, g3, g4⟩ := C.face hj hq
    have x1 := List.mem_flatten.2 ⟨p, f4, hx⟩
    have y1 := List.mem_flatten.2 ⟨q, g4, hy⟩
    have := C.F.G.ends_inj one cutOne ⟨f, (C.F.live f).1 f3, (C.F.sub f f3).kind x x1⟩ ⟨g, (C.F.live g).1 g3, (C.F.sub g g3).kind y y1⟩ ((C.F.sub f f3).live x x1) ((C.F.sub g g3).live y y1) hs ht
    subst this
    exact C.unique ⟨hi, p, hp, hx⟩ ⟨hj, q, hq, hy⟩

/-- The corners of the polygons of the cut mesh are not vertices of the source mesh. -/
theorem CutFacts.low (C : CutFacts d ps smV smF base pts sort edges c st pieces reg n o T poly) (hle : smV ≤ base) {i : Nat} {p : List Nat} (hi : o.smCount ≤ i) (hp : o.polygons[i]? = some p) {x : Nat} (hx : x ∈ p) :
    smV ≤ st.m0.target x := by
  by_cases hc : edgeOf x < c.m0.nE
  · obtain ⟨f, -, -, hf⟩ := C.cutIn _ hc
    have := C.F.G.cutEnds f _ hf _ (joins_endsIn (C.F.G.joins hf)).2
    omega
  · obtain ⟨h, f, p1, p2, p3, p4, -⟩ := C.part ⟨hi, p, hp, hx⟩ (by omega)
    by_cases hb : st.m0.target x < base
    · rw [(C.F.old_part p1).2 hb]
      obtain ⟨q1, -, -, q4⟩ := face_ends C.F.G.ready.psOk p1.1 p2
      have := C.own f _ q1 q4
      omega
    · omega

theorem rev_index {s s' : Two} {l l' : List Nat} (h : List.Forall₂ (RevOf s s') l l') {i : Nat} (hi : i ∈ l') : ∃ (a j : Nat), l'[a]? = some i ∧ l[a]? = some j ∧ RevOf s s' j i := by
  obtain ⟨a, ha, rfl⟩ := List.getElem_of_mem hi
  have hlen := h.length_eq
  exact ⟨a, l[a]'(by omega), List.getElem?_eq_getElem ha, List.getElem?_eq_getElem (by omega), (List.forall₂_iff_get.1 h).2 a (by omega) ha⟩

/-- The output, from what is known about the patches. -/
theorem saved_of {m0 : Mesh P} {start numF : Nat} {polys : List (List Nat)} {faceOf : Nat → Option Nat} (hr : Reachable d m0) (hv : m0.vRem = []) {T : Origins} (OT : OriginsOf T smV smF base numF)
    (S : Sound m0 start polys) (low : ∀ i p, start ≤ i → polys[i]? = some p → ∀ h ∈ p, smV ≤ m0.target h)
    (known : ∀ i, start ≤ i → i < polys.length → ∃ f, faceOf i = some f ∧ smF ≤ f ∧ f < numF) (free : ∀ i, polys.length ≤ i → faceOf i = none)
    {patches : List (List Nat)} (hp : ∀ l ∈ patches, l ≠ [] ∧ l.Nodup ∧ ∀ i ∈ l, start ≤ i ∧ i < polys.length) (U : Nat → List Nat) (table : List (Nat × Nat)) {red blue : List Nat} (hnd : (red ++ blue).Nodup)
    (hall : ∀ k, k ∈ red ++ blue ↔ k < patches.length) {f : Bool → Place} (hf : f true ≠ f false) (popV popF : Bool) (w : Wishes) (threads : Option Nat)
    (ht : ∀ t, threads = some t → 0 < t ∧ polys.length + 1024 ≤ 2 ^ 32) :
    ∃ two out, reverseAll ⟨polys, U, patches, table, faceOf, []⟩ red blue = some two ∧
      savePatches d m0 base threads T popV popF w patches.length two f (merged patches.length red blue) = some out ∧
      SavedAll d m0 smV smF base polys faceOf popV popF w patches (fun k => (colourOf red blue k).map f) out := by
  generalize hs0 : (⟨polys, U, patches, table, faceOf, []⟩ : Two) = s0
  have e1 : s0.polys = polys := by subst hs0; rfl
  have e2 : s0.patches = patches := by subst hs0; rfl
  have e3 : s0.faceOf = faceOf := by subst hs0; rfl
  have good : ∀ l ∈ s0.patches, ∀ j ∈ l, ∃ p f, s0.polys[j]? = some p ∧ s0.faceOf j = some f := by
    rw [e1, e2, e3]
    intro l hl j hj
    obtain ⟨h1, h2⟩ := (hp l hl).2.2 j hj
    obtain ⟨g, g1, -⟩ := known j h1 h2
    exact ⟨_, g, List.getElem?_eq_getElem h2, g1⟩
  obtain ⟨two, news, r1, E, r2, -, r3⟩ := reverseAll_spec good (by rw [Free, e1, e3]; exact free) (by subst hs0; rfl) red blue (fun k hk => by rw [e2]; exact (hall k).1 hk)
  have small : ∀ l ∈ patches, ∀ t, threads = some t → 0 < t ∧ l.length + 1024 ≤ 2 ^ 32 := by
    intro l hl t h
    refine ⟨(ht t h).1, ?_⟩
    have h1 := (ht t h).2
    have h2 : l.length ≤ polys.length := by
      have := ((hp l hl).2.1.subperm (l₂ := List.range polys.length) (fun i hi => List.mem_range.2 ((hp l hl).2.2 i hi).2)).length_le
      simpa using this
    omega
  obtain ⟨out, o1, o2⟩ := save_all (d := d) (m0 := m0) (base := base) (n := patches.length) (threads := threads) (T := T) (popV := popV) (popF := popF) (w := w) (s := two)
    (S := fun as k q => ∃ l, patches[k]? = some l ∧ PatchMeshOf d m0 smV smF base polys faceOf popV popF as l q) (fun as k q h => by obtain ⟨l, -, h⟩ := h; exact h.order) hf hnd patches.length (by
      intro k hk place out
      have hlt := (hall k).1 hk
      have hl := List.getElem?_eq_getElem hlt
      obtain ⟨g1, g2, g3⟩ := hp _ (List.getElem_mem hlt)
      have poly : ∀ i ∈ patches[k], ∃ p, polys[i]? = some p ∧ two.polys[i]? = some p := by
        intro i hi
        have := List.getElem?_eq_getElem (g3 i hi).2
        exact ⟨_, this, E.poly (by rw [e1]; exact this)⟩
      obtain ⟨q, q1, q2, q3⟩ := save_one (w := w) (popV := popV) (popF := popF) (place := place) (s := two) (n := patches.length) (polys := polys) (faceOf := faceOf) (asIs := true) (l := patches[k]) hr hv OT
        (by rw [r2, e2, List.getElem?_append_left hlt]; exact hl) (by rw [Nat.mod_eq_of_lt hlt]; simp) g1 g2 g2 (by
          intro i hi
          obtain ⟨p, p1, p2⟩ := poly i hi
          obtain ⟨q1, q2, q3⟩ := S.face i p (g3 i hi).1 p1
          exact ⟨p, p2, q1, q2, q3, low i p (g3 i hi).1 p1⟩) (by
          intro i hi j hj p q x y h1 h2
          obtain ⟨p', p1, p2⟩ := poly i hi
          obtain ⟨q', q1, q2⟩ := poly j hj
          rw [p2] at h1; rw [q2] at h2
          obtain rfl := Option.some.inj h1
          obtain rfl := Option.some.inj h2
          exact S.ends i j _ _ x y (g3 i hi).1 (g3 j hj).1 p1 q1) (fun i hi => (g3 i hi).2) (by
          rw [List.forall₂_same]
          intro i hi
          obtain ⟨p, p1, p2⟩ := poly i hi
          refine ⟨by rw [if_pos rfl, corners_of p1, corners_of p2], ?_⟩
          obtain ⟨f, f1, f2, f3⟩ := known i (g3 i hi).1 (g3 i hi).2
          refine ⟨f, f1, ?_, f2, f3⟩
          rw [E.2 i (by rw [e1]; exact (g3 i hi).2), e3]; exact f1) (small _ (List.getElem_mem hlt)) out
      exact ⟨q, q1, q2, _, hl, q3⟩) (by
      intro a k hk place out
      have hlt := (hall k).1 (List.mem_of_getElem? hk)
      have hl := List.getElem?_eq_getElem hlt
      obtain ⟨g1, g2, g3⟩ := hp _ (List.getElem_mem hlt)
      have ha := (List.getElem?_eq_some_iff.1 hk).1
      have hlen := r3.length_eq
      obtain ⟨l, l1, l2, l3, -⟩ := (List.forall₂_iff_get.1 r3).2 a ha (by omega)
      have ek : (red ++ blue)[a] = k := (List.getElem?_eq_some_iff.1 hk).2
      simp only [List.get_eq_getElem, ek, e2, hl] at l1 l2 l3
      obtain rfl := Option.some.inj l1
      have l4 := l2.length_eq
      have info : ∀ j i, j ∈ patches[k] → RevOf s0 two j i → ∃ p f, polys[j]? = some p ∧ two.polys[i]? = some (reversed p) ∧ Round m0 p ∧ (∀ h ∈ p, LiveH m0 h) ∧ (p.map m0.target).Nodup ∧
          faceOf j = some f ∧ two.faceOf i = some f := by
        intro j i hj R
        obtain ⟨p, f, p1, p2, p3, p4⟩ := R
        rw [e1] at p1; rw [e3] at p2
        obtain ⟨q1, q2, q3⟩ := S.face j p (g3 j hj).1 p1
        exact ⟨p, f, p1, p3, q1, q2, q3, p2, p4⟩
      obtain ⟨q, q1, q2, q3⟩ := save_one (w := w) (popV := popV) (popF := popF) (place := place) (s := two) (n := patches.length) (k := patches.length + a) (polys := polys) (faceOf := faceOf) (asIs := false) (l := patches[k])
        (l' := news[a]'(by omega)) hr hv OT (by rw [r2, e2, List.getElem?_append_right (by omega), Nat.add_sub_cancel_left, List.getElem?_eq_getElem]) (by
          have : (patches.length + a) % patches.length < patches.length := Nat.mod_lt _ (by omega)
          rw [beq_eq_false_iff_ne]; omega) (by
          intro h0
          rw [h0] at l4
          exact g1 (List.length_eq_zero_iff.1 l4)) g2 l3 (by
          intro i hi
          obtain ⟨b, j, b1, b2, R⟩ := rev_index l2 hi
          have hj := List.mem_of_getElem? b2
          obtain ⟨p, f, p1, p2, p3, p4, p5, -⟩ := info j i hj R
          have hrot := reversed_corners hr p3 p4
          refine ⟨reversed p, p2, reversed_round hr p3 p4, ?_, ?_, ?_⟩
          · intro h hh
            unfold reversed at hh
            rw [List.mem_reverse] at hh
            obtain ⟨x, hx, rfl⟩ := List.mem_map.1 hh
            exact (src_of hr (p4 x hx)).2.2.2.2
          · rw [hrot.nodup_iff, List.nodup_reverse]; exact p5
          · intro h hh
            have : m0.target h ∈ (p.map m0.target).reverse := hrot.mem_iff.1 (List.mem_map.2 ⟨h, hh, rfl⟩)
            rw [List.mem_reverse] at this
            obtain ⟨x, hx, e⟩ := List.mem_map.1 this
            rw [← e]
            exact low j p (g3 j hj).1 p1 x hx) (by
          intro i hi i' hi' p q x y h1 h2 hx hy hs htt
          obtain ⟨b, j, b1, b2, R⟩ := rev_index l2 hi
          obtain ⟨b', j', b1', b2', R'⟩ := rev_index l2 hi'
          have hj := List.mem_of_getElem? b2
          have hj' := List.mem_of_getElem? b2'
          obtain ⟨p0, f, p1, p2, p3, p4, p5, -⟩ := info j i hj R
          obtain ⟨q0, f', q1, q2, q3, q4, q5, -⟩ := info j' i' hj' R'
          rw [p2] at h1; rw [q2] at h2
          obtain rfl := Option.some.inj h1
          obtain rfl := Option.some.inj h2
          unfold reversed at hx hy
          rw [List.mem_reverse] at hx hy
          obtain ⟨x0, hx0, rfl⟩ := List.mem_map.1 hx
          obtain ⟨y0, hy0, rfl⟩ := List.mem_map.1 hy
          obtain ⟨s1, -, s3, -⟩ := src_of hr (p4 x0 hx0)
          obtain ⟨t1, -, t3, -⟩ := src_of hr (q4 y0 hy0)
          have := S.ends j j' p0 q0 x0 y0 (g3 j hj).1 (g3 j' hj').1 p1 q1 hx0 hy0 (by rw [s1, t1]; exact htt) (by rw [← s3, ← t3]; exact hs)
          subst this
          have hb := (List.getElem?_inj (List.getElem?_eq_some_iff.1 b2).1 g2).1 (b2.trans b2'.symm)
          subst hb
          rw [b1] at b1'
          exact Option.some.inj b1') (fun i hi => (g3 i hi).2) (by
          rw [List.forall₂_iff_get]
          refine ⟨l4.symm, ?_⟩
          intro b h1 h2
          simp only [List.get_eq_getElem]
          have hj := List.getElem_mem h2
          have R := (List.forall₂_iff_get.1 l2).2 b h2 h1
          simp only [List.get_eq_getElem] at R
          obtain ⟨p, f, p1, p2, p3, p4, -, p6, p7⟩ := info _ _ hj R
          obtain ⟨f', f1, f2, f3⟩ := known _ (g3 _ hj).1 (g3 _ hj).2
          rw [p6] at f1
          obtain rfl := Option.some.inj f1
          refine ⟨?_, f, p6, p7, f2, f3⟩
          rw [corners_of p2, if_neg (by simp)]
          have : (polys.map List.reverse)[patches[k][b]]? = some p.reverse := by rw [List.getElem?_map, p1]; rfl
          rw [corners_of this, List.map_reverse]
          exact reversed_corners hr p3 p4) (by rw [← l4]; exact small _ (List.getElem_mem hlt)) out
      exact ⟨q, q1, q2, _, hl, q3⟩)
  refine ⟨two, out, r1, o1, fun place asIs => ?_⟩
  obtain ⟨ks, k1, k2, k3⟩ := o2 place asIs
  refine ⟨ks, k1, fun k => ?_, k3⟩
  have e : wantedAt w place = if place = .inside then w.patchIn else w.patchOut := by cases place <;> rfl
  rw [k2 k, e]

/-- The tables that the merge and the copying of the vertices have filled. -/
theorem origins_of {sm cs : Mesh P} (junk : Nat) (I : Intact d sm) (J : Intact d cs) (hv : Preproc.ValidMesh cs.numVertices (polygons cs)) (threads : Option Nat) (hs : Sizes sm cs threads) (S : Soup P)
    (hS : soup junk sm cs threads = some S) : OriginsOf (originsOf d S sm) sm.numVertices sm.numFaces S.ps.numVertices (sm.numFaces + cs.numFaces) := by
  obtain ⟨S', hS', M, -, t2, -, t4⟩ := C60_soup junk I J hv threads hs
  rw [hS] at hS'; injection hS' with hS'; subst hS'
  have key : ∀ (l : List Nat) (s : Mesh P × List Nat), (l.foldl (fun (s : Mesh P × List Nat) i => ((s.1.addVertex (S.ps.pos i)).1, s.2 ++ [i])) s).2.length = s.2.length + l.length := by
    intro l
    induction l with
    | nil => intro s; rfl
    | cons a l ih => intro s; rw [List.foldl_cons, ih]; simp; omega
  have hlen : (copyVertices d S.ps).2.length = S.ps.numVertices := by
    unfold copyVertices
    rw [key, M.intact.noRemoved.1, enum_nil, M.intact.numV]; simp
  constructor
  · intro v hv'
    unfold patchVertex originsOf
    simp only [hlen]
    split
    · rename_i h
      have := t2 (v - sm.numVertices) (by rw [M.numV] at h; omega)
      rw [Nat.add_sub_cancel' hv'] at this
      rw [this, Option.map_some, Nat.sub_add_cancel hv']
    · rfl
  · intro f h1 h2
    unfold originsOf
    have := t4 (f - sm.numFaces) (by omega)
    rw [Nat.add_sub_cancel' h1] at this
    simp only [this, Option.map_some]
    rw [Nat.sub_add_cancel h1]

end Mcut.Patches
