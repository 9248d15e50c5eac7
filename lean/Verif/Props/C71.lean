import Verif.Lemmas.C71Cut
import Verif.Lemmas.C71Tables
import Verif.Props.C70

/-!
# C71: the polygons traced on the faces
-/
namespace Mcut.Trace
open Mcut.Hmesh Mcut.Registry Mcut.CutEdges Mcut.Boundary Mcut.Extract
variable {P : Type} {d : P} {ps : Mesh P} {base : Nat} {pts : Nat → List Nat} {sort : Nat → Nat → List Nat → List Nat} {edges : List Nat} {c : CutEdges.St P} {st : Boundary.St P}
  {pieces : Nat → List Nat} {reg : List (Nat × Nat)}

/-- **C71 (one face).** Whatever `std::partition` does: if the search for a first halfedge of the boundary succeeds then the halfedges that are collected are those around the
face, in its direction, followed by both halfedges of its cut edges; and if the first one begins in a corner of the face then the polygons divide the face. -/
theorem C71_face_partial (G : Given d ps base pts sort edges c st pieces reg) (part : (Nat → Bool) → List Nat → List Nat × List Nat) (hp : IsPartition part) (f : Nat) (hf : LiveF ps f)
    (hc : c.faceEdges f ≠ []) (all : List Nat) (k : Nat) (h : halfedgesOf ps st base reg part f = some (all, k)) :
    ∃ E I, all = E ++ I ∧ k = E.length ∧ BoundaryOf ps st.m0 pts sort pieces f E ∧ I.Perm ((c.faceEdges f).flatMap (fun e => [halfedgeOf e 0, halfedgeOf e 1])) ∧
      ((∀ h, all.head? = some h → src st.m0 h < base) → ∃ l, cutFace ps st base reg part f = some l ∧ Divides st.m0 E I l) := by
  obtain ⟨E, I, h1, h2, h3, h4, h5⟩ := G.face hp hf hc h
  exact ⟨E, I, h1, h2, G.boundaryOf hf h3, h4, fun hh => ⟨_, by unfold cutFace; rw [h]; rfl, h5 hh⟩⟩

/-- **C71 (without thread pool).** If no edge of an intersecting face has more than one intersection point then every face gets its polygons: copies for the faces that are not
cut, and a division of the others; and the tables list them. -/
theorem C71_sequential_partial (G : Given d ps base pts sort edges c st pieces reg) (one : SimpleEdges ps) (part : (Nat → Bool) → List Nat → List Nat × List Nat) (hp : IsPartition part)
    (smF : Nat) (faces : List Nat) (hl : ∀ f ∈ faces, LiveF ps f) (few : ∀ f ∈ faces, c.faceEdges f ≠ [] → ∀ h ∈ ps.fh f, (pts (edgeOf h)).length ≤ 1) :
    ∃ o poly, sequential ps st smF base reg part faces = some o ∧ Listed smF c faces poly o ∧ ∀ f ∈ faces, FaceDone ps pts sort pieces c st.m0 f (poly f) := by
  classical
  let poly : Nat → List (List Nat) := fun f => (facePolygons ps st base reg part f).getD []
  have hpoly : ∀ f ∈ faces, facePolygons ps st base reg part f = some (poly f) ∧ FaceDone ps pts sort pieces c st.m0 f (poly f) := by
    intro f hf
    obtain ⟨l, h1, h2⟩ := G.done hp (hl f hf) one (few f hf)
    have : poly f = l := by simp only [poly, h1, Option.getD_some]
    rw [this]; exact ⟨h1, h2⟩
  obtain ⟨o, e, L⟩ := listed_all (smF := smF) (c := c) faces [] Out.empty listed_empty (fun f hf => ⟨(hpoly f hf).1, G.entry_iff (hl f hf)⟩)
  exact ⟨o, poly, e, by simpa using L, fun f hf => (hpoly f hf).2⟩

/-- **C71 (with thread pool).** For every division of the faces into blocks, the merged tables are exactly those of the loop without thread pool. -/
theorem C71_parallel (ps : Mesh P) (st : Boundary.St P) (smF base : Nat) (reg : List (Nat × Nat)) (part : (Nat → Bool) → List Nat → List Nat × List Nat) (blocks : List (List Nat)) :
    parallel ps st smF base reg part blocks = sequential ps st smF base reg part blocks.flatten := parallel_fold blocks Out.empty

/-- The entry of a point in a pair of faces. -/
theorem key_of {smV smF : Nat} {cut : Nat × Nat → List Nat} (K : Known d ps smV smF base reg cut) {k : Nat × Nat} {v e g f : Nat} (hv : v ∈ cut k) (hr : reg[v - base]? = some (e, g))
    (hf : f = k.1 ∨ f = k.2) (ho : OnEdge ps e f) : k = (if f < smF then (f, g) else (g, f)) := by
  obtain ⟨e', g', hb, hr', h1, h2, h3⟩ := K.entry hv
  rw [hr] at hr'
  simp only [Option.some.injEq, Prod.mk.injEq] at hr'
  obtain ⟨rfl, rfl⟩ := hr'
  have S := K.sided _ (List.mem_of_getElem? hr)
  have hcf := S.one f ho
  rcases hf with rfl | rfl
  · rw [if_pos h1]
    rcases h3 with ⟨-, h3⟩ | ⟨h3, -⟩
    · exact Prod.ext rfl h3.symm
    · have := hcf.2 ((S.one _ h3).1 h2); omega
  · rw [if_neg (by omega)]
    rcases h3 with ⟨h3, -⟩ | ⟨-, h3⟩
    · have := (S.one _ h3).2 (hcf.1 h2); omega
    · exact Prod.ext h3.symm rfl

/-- **C71 (where it starts).** After the earlier stages (C60, C63, C66, C70), for valid input meshes, when every pair of faces has exactly two points and no entry of the
registry occurs twice, the stage can start. -/
theorem C71_given {sm cs : Mesh P} (M : MergeOf d sm cs ps) (hs : Preproc.ValidMesh sm.numVertices (polygons sm)) (hc : Preproc.ValidMesh cs.numVertices (polygons cs))
    (R : List (Nat × Nat × P)) (t : Tables P) (T : Recorded ps sm.numFaces ps.numVertices R t) (hx : CrossTested ps sm.numFaces t.reg) (hnd : t.reg.Nodup)
    (h2 : ∀ k, t.cut k ≠ [] → (t.cut k).length = 2) (keys : List (Nat × Nat)) (hkeys : ∀ k, k ∈ keys ↔ t.cut k ≠ []) (csort : List Nat → List Nat)
    (inside : Nat → Nat → Nat → Bool) (c : CutEdges.St P)
    (hst : cutEdges ps ps.numVertices t.reg csort inside t.cut keys (addPoints (copyVertices d ps).1 t.pts) = some c)
    (A : Arranges ps t.edges sort) (hl : AllEdges ps edges) (D : Divided d ps ps.numVertices t.edges sort edges c st pieces) :
    Given d ps ps.numVertices t.edges sort edges c st pieces t.reg := by
  have R' := C70_ready M hs hc R t T hx h2 keys hkeys csort inside c hst
  have K := known_of M hs hc T hx
  obtain ⟨c', e', CG⟩ := C66_edges M hs hc R t T hx h2 keys hkeys csort inside
  rw [hst] at e'
  obtain rfl : c = c' := Option.some.inj e'
  -- the pair of a cut edge
  have hkey : ∀ f, ∀ e ∈ c.faceEdges f, e ∈ c.cutEdges ∧ ∃ k v w, t.cut k = [v, w] ∧ (f = k.1 ∨ f = k.2) ∧ Joins c.m0 e v w := fun f e he => (CG.faces f e).1 he
  have hin : ∀ {e v w x : Nat} {k : Nat × Nat}, t.cut k = [v, w] → Joins c.m0 e v w → EndsIn c.m0 e x → x ∈ t.cut k := by
    intro e v w x k hk hj hx'
    rw [hk, List.mem_cons, List.mem_singleton]
    rcases hj with ⟨a, b⟩ | ⟨a, b⟩ <;> rcases hx' with h | h <;> omega
  have hsame : ∀ {a b f : Nat} {k : Nat × Nat} {v w v' w' : Nat} {k' : Nat × Nat}, a ∈ c.faceEdges f → b ∈ c.faceEdges f → t.cut k = [v, w] → Joins c.m0 a v w → t.cut k' = [v', w'] →
      Joins c.m0 b v' w' → k = k' → a = b := by
    intro a b f k v w v' w' k' ha hb h1 h3 h4 h5 hkk
    rw [hkk, h4] at h1
    simp only [List.cons.injEq, and_true] at h1
    obtain ⟨rfl, rfl⟩ := h1
    exact CG.once a ((CG.faces f a).1 ha).1 b ((CG.faces f b).1 hb).1 _ _ h3 h5
  have hone : ∀ f e v, OnEdge ps e f → v ∈ t.edges e → ∀ a ∈ c.faceEdges f, ∀ b ∈ c.faceEdges f, EndsIn c.m0 a v → EndsIn c.m0 b v → a = b := by
    intro f e v ho hv a ha b hb h1 h3
    obtain ⟨i, e1, g, rfl, hi, rfl⟩ := ((T.edges e).2 v).1 hv
    have hiv : t.reg[ps.numVertices + i - ps.numVertices]? = some (e1, g) := by rw [Nat.add_sub_cancel_left]; exact hi
    obtain ⟨-, k, v, w, k1, k2, k3⟩ := hkey f a ha
    obtain ⟨-, k', v', w', k1', k2', k3'⟩ := hkey f b hb
    have q1 := key_of K (hin k1 k3 h1) hiv k2 ho
    have q2 := key_of K (hin k1' k3' h3) hiv k2' ho
    exact hsame ha hb k1 k3 k1' k3' (q1.trans q2.symm)
  refine ⟨R', A, hl, D, ?_, ?_, ?_, CG.facesNodup, ?_, ?_, hone, ?_⟩
  · -- the corners
    intro f hf
    have hf' := hf.1
    have hn := M.numF
    rw [M.intact.numF] at hn
    rw [hn] at hf'
    by_cases h : f < sm.numFaces
    · rw [M.smFaces f h]
      exact (hs.1 _ (List.mem_map.2 ⟨f, List.mem_range.2 h, rfl⟩)).2.1
    · have hr := M.cmFaces (f - sm.numFaces) (by omega)
      rw [show sm.numFaces + (f - sm.numFaces) = f by omega] at hr
      rw [hr.perm.nodup_iff]
      exact ((hc.1 _ (List.mem_map.2 ⟨f - sm.numFaces, List.mem_range.2 (by omega), rfl⟩)).2.1).map (fun a b h => by simpa using h)
  · intro e v
    rw [(T.edges e).2]
    constructor
    · rintro ⟨i, e', g, h1, h3, rfl⟩; exact ⟨i, g, h1, h3⟩
    · rintro ⟨i, g, h1, h3⟩; exact ⟨i, e, g, h1, h3, rfl⟩
  · intro f e he
    have := (hkey f e he).1
    rw [CG.numbers, List.mem_range] at this
    exact ((CG.mesh.live e).2 this).1
  · intro f e he v hv
    obtain ⟨-, k, v', w', k1, k2, k3⟩ := hkey f e he
    obtain ⟨-, -, hb, -⟩ := K.entry (hin k1 k3 hv)
    exact hb
  · -- the two points of a cut edge are on different edges
    intro f e he
    obtain ⟨-, k, v, w, k1, k2, k3⟩ := hkey f e he
    have hlt := K.lt k1
    obtain ⟨e1, g1, b1, r1, s1, s2, c1⟩ := K.entry (k := k) (v := v) (by rw [k1]; simp)
    obtain ⟨e2, g2, b2, r2, -, -, c2⟩ := K.entry (k := k) (v := w) (by rw [k1]; simp)
    have hne : e1 ≠ e2 := by
      rintro rfl
      have S := K.sided _ (List.mem_of_getElem? r1)
      have hg : g1 = g2 := by
        rcases c1 with ⟨o1, h1⟩ | ⟨o1, h1⟩ <;> rcases c2 with ⟨o2, h3⟩ | ⟨o2, h3⟩
        · rw [h1, h3]
        · have := (S.one _ o1).2 ((S.one _ o2).1 s2); omega
        · have := (S.one _ o2).2 ((S.one _ o1).1 s2); omega
        · rw [h1, h3]
      subst hg
      have := (List.getElem?_inj (List.getElem?_eq_some_iff.1 r1).1 hnd).1 (r1.trans r2.symm)
      omega
    rcases k3 with ⟨j1, j2⟩ | ⟨j1, j2⟩
    · rw [j1, j2, r1, r2]; simpa using hne
    · rw [j1, j2, r1, r2]; simpa using fun h => hne h.symm
  · intro f v a ha b hb x hx' h1 h3 h4
    obtain ⟨-, k, v1, w1, k1, k2, k3⟩ := hkey f a ha
    obtain ⟨-, k', v2, w2, k1', k2', k3'⟩ := hkey f b hb
    obtain ⟨-, k'', v3, w3, k1'', k2'', k3''⟩ := hkey f x hx'
    have m1 := hin k1 k3 h1
    have m2 := hin k1' k3' h3
    have m3 := hin k1'' k3'' h4
    obtain ⟨e, g, hb', hr, -, -, -⟩ := K.entry m1
    by_cases ho : OnEdge ps e f
    · left
      exact hone f e v ho (((T.edges e).2 v).2 ⟨v - ps.numVertices, e, g, by omega, hr, rfl⟩) a ha b hb h1 h3
    · -- the face is the one that the edge pierces, and the edge has two faces
      have other : ∀ {k : Nat × Nat}, v ∈ t.cut k → (f = k.1 ∨ f = k.2) → f = g ∧ ∃ y, OnEdge ps e y ∧ k = (if f < sm.numFaces then (f, y) else (y, f)) := by
        intro k hm hfk
        obtain ⟨e', g', -, hr', s1, s2, s3⟩ := K.entry hm
        rw [hr] at hr'
        simp only [Option.some.injEq, Prod.mk.injEq] at hr'
        obtain ⟨rfl, rfl⟩ := hr'
        rcases hfk with rfl | rfl
        · rcases s3 with ⟨o, -⟩ | ⟨o, h⟩
          · exact absurd o ho
          · exact ⟨h.symm, k.2, o, by rw [if_pos s1]⟩
        · rcases s3 with ⟨o, h⟩ | ⟨o, -⟩
          · exact ⟨h.symm, k.1, o, by rw [if_neg (by omega)]⟩
          · exact absurd o ho
      obtain ⟨-, y1, o1, q1⟩ := other m1 k2
      obtain ⟨-, y2, o2, q2⟩ := other m2 k2'
      obtain ⟨-, y3, o3, q3⟩ := other m3 k2''
      have pig : y1 = y2 ∨ y2 = y3 ∨ y1 = y3 := by
        unfold OnEdge at o1 o2 o3
        rcases o1 with o1 | o1 <;> rcases o2 with o2 | o2 <;> rcases o3 with o3 | o3
        · left; rw [o1] at o2; exact Option.some.inj o2
        · left; rw [o1] at o2; exact Option.some.inj o2
        · right; right; rw [o1] at o3; exact Option.some.inj o3
        · right; left; rw [o2] at o3; exact Option.some.inj o3
        · right; left; rw [o2] at o3; exact Option.some.inj o3
        · right; right; rw [o1] at o3; exact Option.some.inj o3
        · left; rw [o1] at o2; exact Option.some.inj o2
        · left; rw [o1] at o2; exact Option.some.inj o2
      rcases pig with h | h | h
      · left; exact hsame ha hb k1 k3 k1' k3' (by rw [q1, q2, h])
      · right; left; exact hsame hb hx' k1' k3' k1'' k3'' (by rw [q2, q3, h])
      · right; right; exact hsame ha hx' k1 k3 k1'' k3'' (by rw [q1, q3, h])

/-! ### Demonstrations -/

open Mcut.Floating Mcut.Pairs

/-- The partition that keeps the order. -/
def keeping (p : Nat → Bool) (l : List Nat) : List Nat × List Nat := (l.filter p, l.filter (fun x => !p x))

/-- The partition that exchanges elements from both ends, as common implementations of `std::partition` for bidirectional iterators do. -/
def swapping (p : Nat → Bool) : Nat → List Nat → List Nat × List Nat
  | 0, l => keeping p l
  | _ + 1, [] => ([], [])
  | n + 1, x :: l =>
    if p x then (x :: (swapping p n l).1, (swapping p n l).2)
    else if l = [] then ([], [x])
    else if p (l.getLastD 0) then (l.getLastD 0 :: (swapping p n l.dropLast).1, (swapping p n l.dropLast).2 ++ [x])
    else ((swapping p n (x :: l.dropLast)).1, (swapping p n (x :: l.dropLast)).2 ++ [l.getLastD 0])

theorem keeping_ok : IsPartition keeping := fun _ _ => ⟨List.Perm.refl _, List.Perm.refl _⟩

theorem swapping_perm (p : Nat → Bool) : ∀ (n : Nat) (l : List Nat), (swapping p n l).1.Perm (l.filter p) ∧ (swapping p n l).2.Perm (l.filter (fun x => !p x)) := by
  intro n
  induction n with
  | zero => intro l; exact ⟨List.Perm.refl _, List.Perm.refl _⟩
  | succ n ih =>
    intro l
    cases l with
    | nil => exact ⟨List.Perm.refl _, List.Perm.refl _⟩
    | cons x l =>
      unfold swapping
      by_cases hx : p x = true
      · rw [if_pos hx]
        obtain ⟨h1, h2⟩ := ih l
        exact ⟨by rw [List.filter_cons_of_pos hx]; exact h1.cons x, by rw [List.filter_cons_of_neg (by simp [hx])]; exact h2⟩
      · rw [if_neg hx]
        by_cases hl : l = []
        · subst hl; simp [hx]
        · rw [if_neg hl]
          have hlast : l = l.dropLast ++ [l.getLastD 0] := by
            rw [List.getLastD_eq_getLast?, List.getLast?_eq_getLast_of_ne_nil hl]; exact (List.dropLast_append_getLast hl).symm
          by_cases hy : p (l.getLastD 0) = true
          · rw [if_pos hy]
            obtain ⟨h1, h2⟩ := ih l.dropLast
            generalize l.getLastD 0 = y at *
            generalize l.dropLast = m at *
            subst hlast
            constructor
            · rw [List.filter_cons_of_neg hx, List.filter_append, List.filter_cons_of_pos hy]
              exact (h1.cons y).trans (List.perm_append_comm (l₁ := [y]))
            · rw [List.filter_cons_of_pos (by simp [hx]), List.filter_append, List.filter_cons_of_neg (by simp [hy])]
              simp only [List.filter_nil, List.append_nil]
              exact (h2.append_right [x]).trans List.perm_append_comm
          · rw [if_neg hy]
            obtain ⟨h1, h2⟩ := ih (x :: l.dropLast)
            generalize l.getLastD 0 = y at *
            generalize l.dropLast = m at *
            subst hlast
            constructor
            · rw [List.filter_cons_of_neg hx] at h1 ⊢
              rw [List.filter_append, List.filter_cons_of_neg hy]
              simpa using h1
            · rw [← List.cons_append, List.filter_append, List.filter_cons_of_pos (l := []) (by simp [hy])]
              exact h2.append_right _

theorem swapping_ok : IsPartition (fun p l => swapping p l.length l) := fun p l => swapping_perm p l.length l

/-- The sort of the demonstrations: the points are already in order. -/
def demoSort (o q : Nat) (l : List Nat) : List Nat := o :: (l ++ [q])

/-- The cut edges of the demonstrations. -/
def demoCut (t : Tables Unit) (keys : List (Nat × Nat)) : Option (CutEdges.St Unit) :=
  cutEdges demoPs2 7 t.reg id (fun _ _ _ => true) t.cut keys (addPoints (copyVertices () demoPs2).1 t.pts)

/-- The divided boundaries of the demonstrations. -/
def demoDivided (t : Tables Unit) (order : List Nat) (c : CutEdges.St Unit) : Boundary.St Unit :=
  Boundary.sequential demoPs2 7 t.edges (List.range 9) (part1 demoPs2 t.edges demoSort order (Boundary.start c))

theorem demo2_live (e : Nat) : LiveE demoPs2 e ↔ e < 9 := by
  have nE : demoPs2.nE = 9 := by decide +kernel
  have eRem : demoPs2.eRem = [] := by decide +kernel
  unfold LiveE Live
  rw [nE, eRem]; simp

theorem demo2_simple : SimpleEdges demoPs2 := by
  have all : ∀ a ∈ List.range 9, ∀ b ∈ List.range 9, ((demoPs2.edgeVertex a 0 = demoPs2.edgeVertex b 0 ∧ demoPs2.edgeVertex a 1 = demoPs2.edgeVertex b 1) ∨
      (demoPs2.edgeVertex a 0 = demoPs2.edgeVertex b 1 ∧ demoPs2.edgeVertex a 1 = demoPs2.edgeVertex b 0)) → a = b := by decide +kernel
  intro a b v w ha hb h1 h2
  refine all a (List.mem_range.2 ((demo2_live a).1 ha)) b (List.mem_range.2 ((demo2_live b).1 hb)) ?_
  rcases h1 with ⟨h1, h1'⟩ | ⟨h1, h1'⟩ <;> rcases h2 with ⟨h2, h2'⟩ | ⟨h2, h2'⟩
  · exact .inl ⟨h1.trans h2.symm, h1'.trans h2'.symm⟩
  · exact .inr ⟨h1.trans h2'.symm, h1'.trans h2.symm⟩
  · exact .inr ⟨h1.trans h2'.symm, h1'.trans h2.symm⟩
  · exact .inl ⟨h1.trans h2.symm, h1'.trans h2'.symm⟩

/-- A triangle (face 0) and a pyramid without its base (faces 1, 2, 3), with any points that meet the conditions. -/
theorem demo2_given (test : Nat → Nat → Outcome Unit) (cand : List (Nat × List Nat)) (t : Tables Unit)
    (hcand : ∀ x ∈ cand, ∀ f ∈ x.2, ∃ g ∈ List.range 4, (∃ h ∈ demoPs2.fh g, edgeOf h = x.1) ∧ f < 4 ∧ OtherSide 1 g f)
    (hrun : Registry.sequential demoPs2 3 1 7 test cand = some t) (hnd : t.reg.Nodup) (hmem : ∀ x ∈ t.reg, ∃ y ∈ cand, x.1 = y.1 ∧ x.2 ∈ y.2)
    (h2 : ∀ f ∈ [1, 2, 3], t.cut (0, f) = [] ∨ (t.cut (0, f)).length = 2) (keys : List (Nat × Nat))
    (hkeys : ∀ f ∈ [1, 2, 3], (0, f) ∈ keys ↔ t.cut (0, f) ≠ []) (hk : ∀ k ∈ keys, k = (0, 1) ∨ k = (0, 2) ∨ k = (0, 3)) (order : List Nat) (hord : order.Nodup)
    (horder : ∀ e ∈ List.range 9, e ∈ order ↔ 1 < (t.edges e).length) (hsub : ∀ e ∈ order, e < 9) (c : CutEdges.St Unit) (hc : demoCut t keys = some c) :
    ∃ pieces, Given () demoPs2 7 t.edges demoSort (List.range 9) c (demoDivided t order c) pieces t.reg := by
  have I : Intact () demoTri := runAll_intact () _ (by decide +kernel) (by decide +kernel)
  have J : Intact () demoCone := runAll_intact () _ (by decide +kernel) (by decide +kernel)
  have hv : Preproc.ValidMesh demoTri.numVertices (polygons demoTri) := by
    rw [show demoTri.numVertices = 3 by decide +kernel, show polygons demoTri = [[1, 2, 0]] by decide +kernel]
    refine ⟨?_, by decide⟩
    intro f hf
    obtain rfl : f = [1, 2, 0] := by simpa using hf
    exact ⟨by decide, by decide, by decide⟩
  have hw : Preproc.ValidMesh demoCone.numVertices (polygons demoCone) := by
    rw [show demoCone.numVertices = 4 by decide +kernel, show polygons demoCone = [[1, 2, 0], [2, 3, 0], [3, 1, 0]] by decide +kernel]
    refine ⟨?_, by decide⟩
    intro f hf
    simp only [List.mem_cons, List.not_mem_nil, or_false] at hf
    rcases hf with rfl | rfl | rfl
    all_goals exact ⟨by decide, by decide, by decide⟩
  obtain ⟨S, hS, M, -⟩ := C60_soup 0 I J hw none (by intro t h; cases h)
  have hps : demoPs2 = S.ps := by unfold demoPs2; rw [hS]; rfl
  rw [← hps] at M
  have nV : demoTri.numVertices = 3 := by decide +kernel
  have nF : demoTri.numFaces = 1 := by decide +kernel
  have nV' : demoPs2.numVertices = 7 := by decide +kernel
  have nF' : demoPs2.numFaces = 4 := by decide +kernel
  have cross : ∀ x ∈ cand, ∀ f ∈ x.2, ∃ g, g < demoPs2.numFaces ∧ OnFace demoPs2 x.1 g ∧ f < demoPs2.numFaces ∧ OtherSide demoTri.numFaces g f := by
    intro x hx f hf
    obtain ⟨g, g1, g2, g3, g4⟩ := hcand x hx f hf
    rw [nF', nF]
    exact ⟨g, List.mem_range.1 g1, g2, g3, g4⟩
  have sided : ∀ x ∈ cand, ∀ f ∈ x.2, Sided demoPs2 3 1 x.1 f := by
    intro x hx f hf
    obtain ⟨g, g1, g2, g3, g4⟩ := cross x hx f hf
    have := C63_valid M hv hw g1 g2 g4
    rwa [nV, nF] at this
  have hrec := (C63_sequential demoPs2 3 1 7 test cand sided).2 _ hrun
  have hx : CrossTested demoPs2 demoTri.numFaces t.reg := by
    intro x hx
    obtain ⟨y, hy, h1, h3⟩ := hmem x hx
    rw [h1]
    exact cross y hy _ h3
  have hface : ∀ e ∈ List.range 9, ∀ i ∈ [0, 1], ∀ g, demoPs2.face (halfedgeOf e i) = some g → g < 4 := by
    have : ∀ e ∈ List.range 9, ∀ i ∈ [0, 1], (demoPs2.face (halfedgeOf e i)).getD 0 < 4 := by decide +kernel
    intro e he i hi g hg
    have := this e he i hi
    rw [hg] at this; exact this
  have W := reachable_wf M.intact.reach
  have cases3 : ∀ k, t.cut k ≠ [] → k = (0, 1) ∨ k = (0, 2) ∨ k = (0, 3) := by
    rintro ⟨s, f⟩ hk
    obtain ⟨v, hv'⟩ := List.exists_mem_of_ne_nil _ hk
    obtain ⟨i, e, g, -, hi, h1, h3, h4⟩ := ((hrec.cut s f).2 v).1 hv'
    obtain ⟨g', g1, ⟨h, g2, g2'⟩, g3, g4⟩ := hx _ (List.mem_of_getElem? hi)
    have he : e < 9 := by
      have hl := ((C29_consistent M.intact.reach).face_list g' ⟨by rw [← M.intact.numF]; exact g1, by rw [M.intact.noRemoved.2]; simp⟩).2.2 h g2
      have := (demo2_live (edgeOf h)).1 ((W.liveH_iff h).1 hl.1)
      rw [g2'] at this; exact this
    have hs : s = 0 := by omega
    have hf4 : f < 4 := by
      rcases h4 with ⟨-, h4⟩ | ⟨h4, -⟩
      · rw [nF'] at g3; simp only at g3; omega
      · rcases h4 with h4 | h4
        · exact hface e (List.mem_range.2 he) 0 (by simp) f h4
        · exact hface e (List.mem_range.2 he) 1 (by simp) f h4
    have : f = 1 ∨ f = 2 ∨ f = 3 := by omega
    rw [hs]
    rcases this with rfl | rfl | rfl <;> simp
  have hcut : ∀ k, t.cut k ≠ [] → (t.cut k).length = 2 := by
    intro k hk'
    rcases cases3 k hk' with rfl | rfl | rfl
    · exact (h2 1 (by simp)).resolve_left hk'
    · exact (h2 2 (by simp)).resolve_left hk'
    · exact (h2 3 (by simp)).resolve_left hk'
  have hkeys' : ∀ k, k ∈ keys ↔ t.cut k ≠ [] := by
    intro k
    constructor
    · intro h
      rcases hk k h with rfl | rfl | rfl
      · exact (hkeys 1 (by simp)).1 h
      · exact (hkeys 2 (by simp)).1 h
      · exact (hkeys 3 (by simp)).1 h
    · intro h
      rcases cases3 k h with rfl | rfl | rfl
      · exact (hkeys 1 (by simp)).2 h
      · exact (hkeys 2 (by simp)).2 h
      · exact (hkeys 3 (by simp)).2 h
  have A : Arranges demoPs2 t.edges demoSort := fun e _ _ => ⟨_, List.Perm.refl _, rfl⟩
  have hl : AllEdges demoPs2 (List.range 9) := ⟨List.nodup_range, fun e => by rw [List.mem_range, demo2_live]⟩
  have ho : ManyPoints demoPs2 t.edges order := by
    refine ⟨hord, fun e => ?_⟩
    rw [demo2_live]
    constructor
    · intro h; exact ⟨hsub e h, (horder e (List.mem_range.2 (hsub e h))).1 h⟩
    · rintro ⟨h1, h3⟩; exact (horder e (List.mem_range.2 h1)).2 h3
  unfold demoCut at hc
  have hrec' : Recorded demoPs2 demoTri.numFaces demoPs2.numVertices (hits test cand) t := by rw [nF, nV']; exact hrec
  have Rd := C70_ready M hv hw _ t hrec' hx hcut keys hkeys' id (fun _ _ _ => true) c (by rw [nV']; exact hc)
  obtain ⟨pieces, D⟩ := C70_sequential Rd A order (List.range 9) ho hl
  have := C71_given M hv hw _ t hrec' hx hnd hcut keys hkeys' id (fun _ _ _ => true) c (by rw [nV']; exact hc) A hl D
  rw [nV'] at this
  exact ⟨pieces, this⟩

instance (a f g : Nat) : Decidable (Pairs.OtherSide a f g) := by unfold Pairs.OtherSide; infer_instance

theorem some_getD {α : Type} {x : Option α} {y : α} (h : x.isSome = true) : x = some (x.getD y) := by
  cases x with
  | none => cases h
  | some z => rfl

def demoCut2 : CutEdges.St Unit := (demoCut demoTables2 [(0, 1), (0, 2), (0, 3)]).getD ⟨Mesh.empty (), [], fun _ => [], fun _ => []⟩

/-- The hypotheses are met: the tip of a pyramid passes through a triangle. The sides of the pyramid are divided into two polygons each; the cut edges in the triangle are
not connected with its boundary (here they make up two polygons, one for each side). -/
theorem C71_demo : ∃ pieces, Given () demoPs2 7 demoTables2.edges demoSort (List.range 9) demoCut2 (demoDivided demoTables2 [] demoCut2) pieces demoTables2.reg ∧ SimpleEdges demoPs2 ∧
    (∀ f ∈ [0, 1, 2, 3], LiveF demoPs2 f) ∧ (∀ f ∈ [0, 1, 2, 3], demoCut2.faceEdges f ≠ [] → ∀ h ∈ demoPs2.fh f, (demoTables2.edges (edgeOf h)).length ≤ 1) ∧
    (sequential demoPs2 (demoDivided demoTables2 [] demoCut2) 1 7 demoTables2.reg keeping [0, 1, 2, 3]).map (fun o => o.polygons) =
      some [[6, 8, 10], [0, 4, 3], [1, 2, 5], [12, 17, 0, 19], [15, 21, 1], [14, 2, 25], [16, 22, 27, 3], [18, 4, 26, 28], [20, 24, 5]] := by
  obtain ⟨pieces, G⟩ := demo2_given demoTest2 [(4, [0]), (5, [0]), (7, [0])] demoTables2 (by decide +kernel) (some_getD (by decide +kernel)) (by decide +kernel) (by decide +kernel)
    (by decide +kernel) [(0, 1), (0, 2), (0, 3)] (by decide +kernel) (by decide) [] (by simp) (by decide +kernel) (by simp) demoCut2 (some_getD (by decide +kernel))
  refine ⟨pieces, G, demo2_simple, ?_, by decide +kernel, by decide +kernel⟩
  have nF : demoPs2.nF = 4 := by decide +kernel
  have fRem : demoPs2.fRem = [] := by decide +kernel
  intro f hf
  refine ⟨?_, by rw [fRem]; simp⟩
  rw [nF]
  simp at hf; omega

def demoCut3 : CutEdges.St Unit := (demoCut demoTables3 [(0, 1), (0, 2)]).getD ⟨Mesh.empty (), [], fun _ => [], fun _ => []⟩

/-- **C71 does not hold without the condition on the number of points:** where an edge of the face has two points, a correct `std::partition` that keeps the order of the
edges lets the search come to a halfedge between the two points whose direction is that of the neighbouring face; it is not found in the list of the halfedges of the edge,
and the end of that list is dereferenced (kernel.cpp:5144-5155, the assertion is compiled out). An implementation that exchanges elements from both ends happens to avoid
this here. -/
theorem C71_order_fails : ∃ pieces, Given () demoPs2 7 demoTables3.edges demoSort (List.range 9) demoCut3 (demoDivided demoTables3 [0] demoCut3) pieces demoTables3.reg ∧
    SimpleEdges demoPs2 ∧ IsPartition keeping ∧ cutFace demoPs2 (demoDivided demoTables3 [0] demoCut3) 7 demoTables3.reg keeping 0 = none ∧
    cutFace demoPs2 (demoDivided demoTables3 [0] demoCut3) 7 demoTables3.reg (fun p l => swapping p l.length l) 0 ≠ none := by
  obtain ⟨pieces, G⟩ := demo2_given demoTest3 demoCand3 demoTables3 (by decide +kernel) (some_getD (by decide +kernel)) (by decide +kernel) (by decide +kernel)
    (by decide +kernel) [(0, 1), (0, 2)] (by decide +kernel) (by decide) [0] (by simp) (by decide +kernel) (by simp) demoCut3 (some_getD (by decide +kernel))
  exact ⟨pieces, G, demo2_simple, keeping_ok, by decide +kernel, by decide +kernel⟩

/-- The tests: the edges 3, 4 and 6 of the pyramid pierce the triangle, a slit that begins and ends inside the triangle. -/
def demoTest4 (e f : Nat) : Outcome Unit := if f = 0 ∧ (e = 3 ∨ e = 4 ∨ e = 6) then .point () else .miss

def demoTables4 : Tables Unit := (Registry.sequential demoPs2 3 1 7 demoTest4 [(3, [0]), (4, [0]), (6, [0])]).getD .empty

def demoCut4 : CutEdges.St Unit := (demoCut demoTables4 [(0, 1), (0, 2)]).getD ⟨Mesh.empty (), [], fun _ => [], fun _ => []⟩

/-- **Cut edges that are not connected with the boundary of the face:** two cut edges that form a slit inside the triangle are dropped when the walk begins at an end of the
slit, but when it begins in the middle (which depends on the order of the edges after `std::partition`, and happens with the usual implementation) the walk along the slit
and back is taken for a polygon: halfedge, opposite halfedge, halfedge, opposite halfedge. -/
theorem C71_slit_fails : ∃ pieces, Given () demoPs2 7 demoTables4.edges demoSort (List.range 9) demoCut4 (demoDivided demoTables4 [] demoCut4) pieces demoTables4.reg ∧
    SimpleEdges demoPs2 ∧ IsPartition keeping ∧ IsPartition (fun p l => swapping p l.length l) ∧
    cutFace demoPs2 (demoDivided demoTables4 [] demoCut4) 7 demoTables4.reg keeping 0 = some [[4, 6, 8]] ∧
    cutFace demoPs2 (demoDivided demoTables4 [] demoCut4) 7 demoTables4.reg (fun p l => swapping p l.length l) 0 = some [[8, 4, 6], [2, opposite 2, 1, opposite 1]] := by
  obtain ⟨pieces, G⟩ := demo2_given demoTest4 [(3, [0]), (4, [0]), (6, [0])] demoTables4 (by decide +kernel) (some_getD (by decide +kernel)) (by decide +kernel) (by decide +kernel)
    (by decide +kernel) [(0, 1), (0, 2)] (by decide +kernel) (by decide) [] (by simp) (by decide +kernel) (by simp) demoCut4 (some_getD (by decide +kernel))
  exact ⟨pieces, G, demo2_simple, keeping_ok, swapping_ok, by decide +kernel, by decide +kernel⟩

end Mcut.Trace
