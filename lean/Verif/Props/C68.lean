import Verif.Lemmas.C68
import Verif.Props.C67

/-!
# C68: floating polygons
-/
namespace Mcut.Floating
open Mcut.Hmesh Mcut.Registry Mcut.Extract Mcut.Pairs Mcut.CutEdges Mcut.CutPaths
variable {P : Type} {d : P} {sm cs ps : Mesh P}

theorem tested_eq {reg : List (Nat × Nat)} {base v f : Nat} : tested reg base v = some f ↔ ∃ x, base ≤ v ∧ reg[v - base]? = some (x, f) := by
  unfold tested
  by_cases h : v < base
  · rw [if_pos h]
    constructor
    · intro h'; cases h'
    · rintro ⟨x, hb, -⟩; omega
  · rw [if_neg h]
    constructor
    · intro h'
      cases hr : reg[v - base]? with
      | none => rw [hr] at h'; cases h'
      | some y =>
        rw [hr] at h'
        simp only [Option.map_some, Option.some.injEq] at h'
        exact ⟨y.1, by omega, by rw [← h']⟩
    · rintro ⟨x, hb, hr⟩
      rw [hr]; rfl

theorem joins_of {m : Mesh P} {e v w : Nat} (h : JoinsV (endsOf m) e v w) : Joins m e v w := by
  unfold JoinsV endsOf at h
  simp only [Prod.mk.injEq] at h
  exact h

/-- Three consecutive points of the cut graph: when the outer two pierce the same face, so does the middle one. -/
theorem between {smV smF base : Nat} {reg : List (Nat × Nat)} {cut : Nat × Nat → List Nat} (K : Known d ps smV smF base reg cut) {m : Mesh P} {st : CutEdges.St P}
    (G : CutGraph m cut st) {a b u v w f : Nat} (ha : a ∈ st.cutEdges) (hb : b ∈ st.cutEdges) (hab : a ≠ b) (ja : Joins st.m0 a u v) (jb : Joins st.m0 b v w)
    (hu : tested reg base u = some f) (hw : tested reg base w = some f) : tested reg base v = some f := by
  obtain ⟨ka, u', v', hka, hja⟩ := G.only a ha
  obtain ⟨kb, v'', w', hkb, hjb⟩ := G.only b hb
  have hj : ∀ {e x y x' y' : Nat}, Joins st.m0 e x y → Joins st.m0 e x' y' → (x = x' ∧ y = y') ∨ (x = y' ∧ y = x') := by
    rintro e x y x' y' (⟨p, q⟩ | ⟨p, q⟩) (⟨r, s⟩ | ⟨r, s⟩)
    · exact .inl ⟨p.symm.trans r, q.symm.trans s⟩
    · exact .inr ⟨p.symm.trans r, q.symm.trans s⟩
    · exact .inr ⟨q.symm.trans s, p.symm.trans r⟩
    · exact .inl ⟨q.symm.trans s, p.symm.trans r⟩
  have mu : u ∈ cut ka ∧ v ∈ cut ka := by
    rw [hka]
    rcases hj ja hja with ⟨rfl, rfl⟩ | ⟨rfl, rfl⟩ <;> simp
  have mw : v ∈ cut kb ∧ w ∈ cut kb := by
    rw [hkb]
    rcases hj jb hjb with ⟨rfl, rfl⟩ | ⟨rfl, rfl⟩ <;> simp
  have hne : ka ≠ kb := by
    intro h
    subst h
    rw [hka] at hkb
    simp only [List.cons.injEq, and_true] at hkb
    rw [← hkb.1, ← hkb.2] at hjb
    exact hab (G.once a ha b hb _ _ hja hjb)
  obtain ⟨x0, f0, b0, r0, s0, c0, e0⟩ := K.entry mu.1
  obtain ⟨x1, f1, b1, r1, -, -, e1⟩ := K.entry mu.2
  obtain ⟨x1', f1', -, r1', s1, c1, e1'⟩ := K.entry mw.1
  obtain ⟨x2, f2, b2, r2, -, -, e2⟩ := K.entry mw.2
  rw [r1] at r1'
  simp only [Option.some.injEq, Prod.mk.injEq] at r1'
  obtain ⟨rfl, rfl⟩ := r1'
  have hf0 : f0 = f := by
    have := tested_eq.2 ⟨x0, b0, r0⟩
    rw [hu] at this; exact (Option.some.inj this).symm
  have hf2 : f2 = f := by
    have := tested_eq.2 ⟨x2, b2, r2⟩
    rw [hw] at this; exact (Option.some.inj this).symm
  subst hf0
  refine tested_eq.2 ⟨x1, b1, ?_⟩
  rw [r1]
  congr 2
  by_contra hf
  rcases e0 with ⟨-, h0⟩ | ⟨-, h0⟩ <;> rcases e2 with ⟨-, h2⟩ | ⟨-, h2⟩
  · rcases e1 with ⟨-, h1⟩ | ⟨-, h1⟩ <;> rcases e1' with ⟨-, h1'⟩ | ⟨-, h1'⟩
    · omega
    · omega
    · omega
    · exact hne (Prod.ext (by omega) (by omega))
  · omega
  · omega
  · rcases e1 with ⟨-, h1⟩ | ⟨-, h1⟩ <;> rcases e1' with ⟨-, h1'⟩ | ⟨-, h1'⟩
    · exact hne (Prod.ext (by omega) (by omega))
    · omega
    · omega
    · omega

/-- **C68 (one cut path).** In the situation of C66 and C67, for a cut path `seq` of kind `k`, and whatever point the hash map of its points begins with: the check ends without a
failed assertion. It reports a polygon exactly if the path is a closed loop all of whose points pierce one and the same face; it reports this face, and the points of the loop
in order around it. -/
theorem C68_floating (M : MergeOf d sm cs ps) (hs : Preproc.ValidMesh sm.numVertices (polygons sm)) (hc : Preproc.ValidMesh cs.numVertices (polygons cs))
    (R : List (Nat × Nat × P)) (t : Tables P) (T : Recorded ps sm.numFaces ps.numVertices R t) (hx : CrossTested ps sm.numFaces t.reg)
    (h2 : ∀ k, t.cut k ≠ [] → (t.cut k).length = 2) (hnd : t.reg.Nodup) (h1 : OneCommonEdge ps) (m : Mesh P) (st : CutEdges.St P) (G : CutGraph m t.cut st)
    (seqs : List (List Nat)) (Q : Sequences (endsOf st.m0) st.cutEdges seqs) (seq : List Nat) (hseq : seq ∈ seqs) (k : Kind)
    (hk : classify ps sm.numFaces ps.numVertices t.reg (endsOf st.m0) seq = some k) (first : Nat)
    (hfirst : ∃ e ∈ seq, (endsOf st.m0 e).1 = first ∨ (endsOf st.m0 e).2 = first) :
    ∃ o, floating (endsOf st.m0) (tested t.reg ps.numVertices) k first seq = some o ∧
      (∀ f vs, o = some (f, vs) → IsLoop (endsOf st.m0) st.cutEdges seq ∧ AllPierce t.reg ps.numVertices (endsOf st.m0) seq f ∧ Round (endsOf st.m0) seq vs) ∧
      (IsLoop (endsOf st.m0) st.cutEdges seq → ∀ f, AllPierce t.reg ps.numVertices (endsOf st.m0) seq f → ∃ vs, o = some (f, vs)) := by
  obtain ⟨C, B⟩ := C67_curves M hs hc R t T hx h2 hnd h1 m st G
  have K := known_of M hs hc T hx
  have hsub : ∀ e ∈ seq, e ∈ st.cutEdges := fun e he => Q.partition.mem_iff.1 (List.mem_flatten.2 ⟨seq, hseq, he⟩)
  have hsnd : seq.Nodup := (List.nodup_flatten.1 (Q.partition.nodup_iff.2 C.nodup)).1 seq hseq
  generalize hends : endsOf st.m0 = ends at *
  rcases Q.shape seq hseq with ⟨v, w, hp⟩ | hl
  · -- a path
    obtain ⟨k', hk', x, y, -, -, -, -, hlin, -⟩ := classify_path B hsub hsnd hp
    rw [hk] at hk'
    obtain rfl := Option.some.inj hk'
    refine ⟨none, ?_, by simp, ?_⟩
    · unfold floating
      rw [hlin]
      simp
    · rintro ⟨hne, p, A, hcl, hdeg⟩
      obtain ⟨-, q, A', hq0, -, -, hd, -⟩ := hp
      have hlen := List.length_pos_iff.2 hne
      obtain ⟨a, ha⟩ : ∃ a, seq[0]? = some a := ⟨_, List.getElem?_eq_getElem hlen⟩
      have hi : Inc ends a v := by
        rw [← hq0]; exact ((A'.joins 0 a ha).inc _).2 (.inl rfl)
      obtain ⟨j, hj, hjv⟩ := inc_along A (List.mem_of_getElem? ha) hi
      exfalso
      have : degree ends st.cutEdges v = 2 := by
        rw [← hjv]
        by_cases h : j < seq.length
        · exact hdeg j h
        · rw [show j = seq.length by omega, hcl]; exact hdeg 0 hlen
      omega
  · -- a loop
    obtain ⟨k', hk', hkind, -⟩ := classify_loop B hsub hl
    rw [hk] at hk'
    obtain rfl := Option.some.inj hk'
    subst hkind
    have R := ring_of C hsub hsnd (Q.whole seq hseq) hl
    obtain ⟨hne, p, A, hcl, hdeg⟩ := id hl
    have hlen := List.length_pos_iff.2 hne
    have hn : 3 ≤ seq.length := by
      by_contra hlt
      have g0 : seq[0]? = some seq[0] := List.getElem?_eq_getElem hlen
      have j0 := A.joins 0 _ g0
      by_cases h1' : seq.length = 1
      · rw [show (0 : Nat) + 1 = seq.length by omega, hcl] at j0
        have := C.noLoop _ (hsub _ (List.mem_of_getElem? g0))
        rcases j0 with h | h <;> rw [h] at this <;> exact this rfl
      · have g1 : seq[1]? = some seq[1] := List.getElem?_eq_getElem (by omega)
        have j1 := A.joins 1 _ g1
        rw [show 1 + 1 = seq.length by omega, hcl] at j1
        rw [← hends] at j0 j1
        have := G.once _ (hsub _ (List.mem_of_getElem? g0)) _ (hsub _ (List.mem_of_getElem? g1)) _ _ (joins_of j0) (joins_swap.1 (joins_of j1))
        have := (List.getElem?_inj (by omega) hsnd).1 (g0.trans ((congrArg some this).trans g1.symm))
        omega
    have htested : ∀ e ∈ seq, ∀ v, Inc ends e v → ∃ f, tested t.reg ps.numVertices v = some f := by
      intro e he v hi
      obtain ⟨x, f, hb, hr, -⟩ := B e (hsub e he) v hi
      exact ⟨f, tested_eq.2 ⟨x, hb, hr⟩⟩
    obtain ⟨r, r1, r2⟩ := scan_all ends (tested t.reg ps.numVertices) seq hne (by
      intro v hv
      obtain ⟨e, he, hi⟩ := visit_inc ends seq none v hv
      exact htested e he v hi)
    -- looking at the visited points is enough
    have hall : ∀ f, r = some f ↔ AllPierce t.reg ps.numVertices ends seq f := by
      intro f
      rw [r2]
      constructor
      · intro h e he v hi
        apply tested_eq.1
        obtain ⟨j, hj, rfl⟩ := inc_along A he hi
        rcases visit_loop A hcl hn j hj with hv | ⟨h0, hjl, hv1, hv2⟩
        · exact h _ hv
        · have ga : seq[j - 1]? = some seq[j - 1] := List.getElem?_eq_getElem (by omega)
          have gb : seq[j]? = some seq[j] := List.getElem?_eq_getElem hjl
          have ja := A.joins _ _ ga
          have jb := A.joins _ _ gb
          rw [show j - 1 + 1 = j by omega] at ja
          rw [← hends] at ja jb
          refine between K G (hsub _ (List.mem_of_getElem? ga)) (hsub _ (List.mem_of_getElem? gb)) ?_ (joins_of ja) (joins_of jb) (h _ hv1) (h _ hv2)
          intro heq
          have := (List.getElem?_inj (by omega) hsnd).1 (ga.trans ((congrArg some heq).trans gb.symm))
          omega
      · intro h v hv
        obtain ⟨e, he, hi⟩ := visit_inc ends seq none v hv
        exact tested_eq.2 (h e he v hi)
    obtain ⟨e1, he1, hi1⟩ := hfirst
    have hone : ∀ x ∉ ([] : List Nat), degree ends seq x ≠ 1 := by
      intro x _ hd
      have : star ends seq x ≠ [] := fun h => by rw [← star_length, h] at hd; simp at hd
      obtain ⟨y, hy⟩ := List.exists_mem_of_ne_nil _ this
      have := R.two y (mem_star.1 hy).1 x (mem_star.1 hy).2
      omega
    obtain ⟨vs, v1, v2⟩ := trace_spec R hn (seq.length + 1) [] first none (fun _ => first) (by simp) hlen
      (fun o ho hoi _ => ⟨rfl, hoi, ho, by simp, by simp, by simp, by simp, by simp, by simp, by simp, by simp⟩) (by simp) (by simp) ⟨e1, he1, hi1⟩ rfl
    have hbins : bins ends seq = star ends seq := funext (bins_eq R.curves)
    have hfl : floating ends (tested t.reg ps.numVertices) ⟨false, true, true⟩ first seq = some (r.map (fun f => (f, vs))) := by
      unfold floating
      rw [if_pos (by rfl), if_neg (by omega), r1, Option.bind_some]
      cases r with
      | none => rfl
      | some f =>
        simp only
        rw [hbins]
        simp only [List.length_nil, List.range_zero, List.map_nil] at v1
        rw [v1]
        rfl
    refine ⟨_, hfl, ?_, ?_⟩
    · intro f vs' ho
      cases r with
      | none => simp at ho
      | some g =>
        simp only [Option.map_some, Option.some.injEq, Prod.mk.injEq] at ho
        obtain ⟨rfl, rfl⟩ := ho
        exact ⟨hl, (hall g).1 rfl, v2⟩
    · intro _ f hf
      rw [(hall f).2 hf]
      exact ⟨vs, rfl⟩

/-- **C68.** The whole check: the sequences with their kinds and first keys. What is reported are exactly the closed loops that pierce only one face, one polygon for each, with
that face and the points in order around the loop. The kernel asks the front end for a partition exactly if there is such a loop. -/
theorem C68_detected (M : MergeOf d sm cs ps) (hs : Preproc.ValidMesh sm.numVertices (polygons sm)) (hc : Preproc.ValidMesh cs.numVertices (polygons cs))
    (R : List (Nat × Nat × P)) (t : Tables P) (T : Recorded ps sm.numFaces ps.numVertices R t) (hx : CrossTested ps sm.numFaces t.reg)
    (h2 : ∀ k, t.cut k ≠ [] → (t.cut k).length = 2) (hnd : t.reg.Nodup) (h1 : OneCommonEdge ps) (m : Mesh P) (st : CutEdges.St P) (G : CutGraph m t.cut st)
    (seqs : List (List Nat)) (Q : Sequences (endsOf st.m0) st.cutEdges seqs) (l : List (List Nat × Kind × Nat)) (hl : l.map Prod.fst = seqs)
    (hk : ∀ x ∈ l, classify ps sm.numFaces ps.numVertices t.reg (endsOf st.m0) x.1 = some x.2.1)
    (hfirst : ∀ x ∈ l, ∃ e ∈ x.1, (endsOf st.m0 e).1 = x.2.2 ∨ (endsOf st.m0 e).2 = x.2.2) :
    ∃ out, detect (endsOf st.m0) (tested t.reg ps.numVertices) l = some out ∧
      (∀ f vs, (f, vs) ∈ out → ∃ seq ∈ seqs, IsLoop (endsOf st.m0) st.cutEdges seq ∧ AllPierce t.reg ps.numVertices (endsOf st.m0) seq f ∧ Round (endsOf st.m0) seq vs) ∧
      (∀ seq ∈ seqs, IsLoop (endsOf st.m0) st.cutEdges seq → ∀ f, AllPierce t.reg ps.numVertices (endsOf st.m0) seq f → ∃ vs, (f, vs) ∈ out ∧ Round (endsOf st.m0) seq vs) ∧
      out.length ≤ seqs.length := by
  have each : ∀ x ∈ l, ∃ o, floating (endsOf st.m0) (tested t.reg ps.numVertices) x.2.1 x.2.2 x.1 = some o ∧
      (∀ f vs, o = some (f, vs) → IsLoop (endsOf st.m0) st.cutEdges x.1 ∧ AllPierce t.reg ps.numVertices (endsOf st.m0) x.1 f ∧ Round (endsOf st.m0) x.1 vs) ∧
      (IsLoop (endsOf st.m0) st.cutEdges x.1 → ∀ f, AllPierce t.reg ps.numVertices (endsOf st.m0) x.1 f → ∃ vs, o = some (f, vs)) := by
    intro x hx'
    exact C68_floating M hs hc R t T hx h2 hnd h1 m st G seqs Q x.1 (by rw [← hl]; exact List.mem_map.2 ⟨x, hx', rfl⟩) x.2.1 (hk x hx') x.2.2 (hfirst x hx')
  -- one result for each sequence
  have key : ∀ l' : List (List Nat × Kind × Nat), (∀ x ∈ l', x ∈ l) → ∃ os : List (Option (Nat × List Nat)),
      l'.mapM (fun x => floating (endsOf st.m0) (tested t.reg ps.numVertices) x.2.1 x.2.2 x.1) = some os ∧ os.length = l'.length ∧
      ∀ o, o ∈ os ↔ ∃ x ∈ l', floating (endsOf st.m0) (tested t.reg ps.numVertices) x.2.1 x.2.2 x.1 = some o := by
    intro l'
    induction l' with
    | nil => intro _; exact ⟨[], rfl, rfl, by simp⟩
    | cons x l' ih =>
      intro hsub
      obtain ⟨os, o1, o2, o3⟩ := ih (fun y hy => hsub y (by simp [hy]))
      obtain ⟨o, ho, -⟩ := each x (hsub x (by simp))
      refine ⟨o :: os, ?_, by simp [o2], ?_⟩
      · rw [List.mapM_cons, ho]
        simp [o1]
      · intro o'
        rw [List.mem_cons, o3]
        constructor
        · rintro (rfl | ⟨y, hy, h⟩)
          · exact ⟨x, by simp, ho⟩
          · exact ⟨y, by simp [hy], h⟩
        · rintro ⟨y, hy, h⟩
          rcases List.mem_cons.1 hy with rfl | hy
          · left; rw [ho] at h; exact (Option.some.inj h).symm
          · exact .inr ⟨y, hy, h⟩
  obtain ⟨os, o1, o2, o3⟩ := key l (fun _ h => h)
  refine ⟨os.filterMap id, by unfold detect; rw [o1]; rfl, ?_, ?_, ?_⟩
  · intro f vs hm
    rw [List.mem_filterMap] at hm
    obtain ⟨o, ho, he⟩ := hm
    obtain ⟨x, hx', hfl⟩ := (o3 o).1 ho
    obtain ⟨o', h1', h2', -⟩ := each x hx'
    rw [hfl] at h1'
    obtain rfl := Option.some.inj h1'
    exact ⟨x.1, by rw [← hl]; exact List.mem_map.2 ⟨x, hx', rfl⟩, h2' f vs he⟩
  · intro seq hseq hloop f hf
    rw [← hl] at hseq
    obtain ⟨x, hx', rfl⟩ := List.mem_map.1 hseq
    obtain ⟨o', h1', h2', h3'⟩ := each x hx'
    obtain ⟨vs, hvs⟩ := h3' hloop f hf
    refine ⟨vs, ?_, (h2' f vs hvs).2.2⟩
    rw [List.mem_filterMap]
    exact ⟨o', (o3 o').2 ⟨x, hx', h1'⟩, hvs⟩
  · calc (os.filterMap id).length ≤ os.length := List.length_filterMap_le _ _
      _ = seqs.length := by rw [o2, ← hl, List.length_map]

-- the check computed: a loop of three points that all pierce face 7, given with edges in both directions; the point that is skipped does not matter
example : floating demoEnds (fun v => if v = 20 then some 7 else if v = 21 then some 7 else if v = 22 then some 7 else none) ⟨false, true, true⟩ 20 [1, 5, 3]
    = some (some (7, [20, 21, 22])) := by decide +kernel

example : floating demoEnds (fun v => if v = 20 then some 7 else if v = 21 then some 8 else if v = 22 then some 7 else none) ⟨false, true, true⟩ 20 [1, 5, 3]
    = some none := by decide +kernel

-- a linear path is never reported
example : floating demoEnds (fun _ => some 7) ⟨true, true, false⟩ 10 [4, 2, 0] = some none := by decide +kernel

/-- Three triangles around a vertex (a pyramid without its base). -/
def demoCone : Mesh Unit :=
  (runAll (Mesh.empty ()) [.addVertex (), .addVertex (), .addVertex (), .addVertex (), .addFace [0, 1, 2], .addFace [0, 2, 3], .addFace [0, 3, 1]]).getD (Mesh.empty ())

/-- The triangle and the pyramid merged. -/
def demoPs2 : Mesh Unit := ((soup 0 demoTri demoCone none).map (fun S => S.ps)).getD demoTri

/-- The edges in the tip of the pyramid pierce the triangle. -/
def demoTest2 (e f : Nat) : Outcome Unit := if f = 0 ∧ (e = 4 ∨ e = 5 ∨ e = 7) then .point () else .miss

def demoTables2 : Tables Unit := (sequential demoPs2 3 1 7 demoTest2 [(4, [0]), (5, [0]), (7, [0])]).getD .empty

instance (ps : Mesh Unit) (e g : Nat) : Decidable (OnEdge ps e g) := inferInstanceAs (Decidable (_ ∨ _))

/-- The hypotheses of `C68_floating` are met by a triangle through which the tip of a pyramid passes. -/
theorem C68_demo : ∃ (sm cs ps : Mesh Unit) (R : List (Nat × Nat × Unit)) (t : Tables Unit), MergeOf () sm cs ps ∧ Preproc.ValidMesh sm.numVertices (polygons sm) ∧
    Preproc.ValidMesh cs.numVertices (polygons cs) ∧ Recorded ps sm.numFaces ps.numVertices R t ∧ CrossTested ps sm.numFaces t.reg ∧
    (∀ k, t.cut k ≠ [] → (t.cut k).length = 2) ∧ t.reg.Nodup ∧ OneCommonEdge ps ∧ t.reg = [(4, 0), (5, 0), (7, 0)] := by
  have I : Intact () demoTri := runAll_intact () _ (by decide +kernel) (by decide +kernel)
  have J : Intact () demoCone := runAll_intact () _ (by decide +kernel) (by decide +kernel)
  have hv : Preproc.ValidMesh demoTri.numVertices (polygons demoTri) := by
    rw [show demoTri.numVertices = 3 by decide +kernel, show polygons demoTri = [[1, 2, 0]] by decide +kernel]
    refine ⟨?_, by decide⟩
    intro f hf
    obtain rfl : f = [1, 2, 0] := by simpa using hf
    exact ⟨by decide, by decide, by decide⟩
  have hw : Preproc.ValidMesh demoCone.numVertices (polygons demoCone) := by
    rw [show demoCone.numVertices = 4 by decide +kernel, show polygons demoCone = [[1, 2, 0], [2, 3, 0], [3, 1, 0]] by decide +kernel]
    refine ⟨?_, by decide⟩
    intro f hf
    simp only [List.mem_cons, List.not_mem_nil, or_false] at hf
    rcases hf with rfl | rfl | rfl
    all_goals exact ⟨by decide, by decide, by decide⟩
  obtain ⟨S, hS, M, -⟩ := C60_soup 0 I J hw none (by intro t h; cases h)
  have hps : demoPs2 = S.ps := by unfold demoPs2; rw [hS]; rfl
  rw [← hps] at M
  have nV : demoTri.numVertices = 3 := by decide +kernel
  have nF : demoTri.numFaces = 1 := by decide +kernel
  have nV' : demoPs2.numVertices = 7 := by decide +kernel
  have nF' : demoPs2.numFaces = 4 := by decide +kernel
  have fh1 : demoPs2.fh 1 = [6, 8, 10] := by decide +kernel
  have fh2 : demoPs2.fh 2 = [12, 14, 9] := by decide +kernel
  have on : ∀ e, e = 4 ∨ e = 5 ∨ e = 7 → ∃ f, f < 4 ∧ OnFace demoPs2 e f ∧ OtherSide 1 f 0 := by
    rintro e (rfl | rfl | rfl)
    · exact ⟨1, by omega, ⟨8, by rw [fh1]; simp, rfl⟩, by unfold OtherSide; omega⟩
    · exact ⟨1, by omega, ⟨10, by rw [fh1]; simp, rfl⟩, by unfold OtherSide; omega⟩
    · exact ⟨2, by omega, ⟨14, by rw [fh2]; simp, rfl⟩, by unfold OtherSide; omega⟩
  have sided : ∀ x ∈ [(4, [0]), (5, [0]), (7, [0])], ∀ f ∈ x.2, Sided demoPs2 3 1 x.1 f := by
    intro x hx f hf
    have hx1 : (x.1 = 4 ∨ x.1 = 5 ∨ x.1 = 7) ∧ f = 0 := by
      simp only [List.mem_cons, List.not_mem_nil, or_false] at hx
      rcases hx with rfl | rfl | rfl <;> simp at hf <;> simp [hf]
    obtain ⟨g, g1, g2, g3⟩ := on _ hx1.1
    have := C63_valid M hv hw (e := x.1) (f := g) (g := f) (by rw [nF']; exact g1) g2 (by rw [nF, hx1.2]; exact g3)
    rwa [nV, nF] at this
  have hrun := C63_sequential demoPs2 3 1 7 demoTest2 _ sided
  have hsome : sequential demoPs2 3 1 7 demoTest2 [(4, [0]), (5, [0]), (7, [0])] = some demoTables2 := by
    unfold demoTables2
    cases h : sequential demoPs2 3 1 7 demoTest2 [(4, [0]), (5, [0]), (7, [0])] with
    | none =>
      have : (sequential demoPs2 3 1 7 demoTest2 [(4, [0]), (5, [0]), (7, [0])]).isSome = true := by decide +kernel
      rw [h] at this; cases this
    | some t => rfl
  have hreg : demoTables2.reg = [(4, 0), (5, 0), (7, 0)] := by decide +kernel
  have hrec := hrun.2 _ hsome
  have hcut : ∀ c ∈ [1, 2, 3], (demoTables2.cut (0, c)).length = 2 := by decide +kernel
  have hface : ∀ e ∈ List.range 9, ∀ i ∈ [0, 1], ∀ g, demoPs2.face (halfedgeOf e i) = some g → g < 4 := by
    have : ∀ e ∈ List.range 9, ∀ i ∈ [0, 1], (demoPs2.face (halfedgeOf e i)).getD 0 < 4 := by decide +kernel
    intro e he i hi g hg
    have := this e he i hi
    rw [hg] at this; exact this
  have hon : ∀ e, e < 9 → ∀ g, OnEdge demoPs2 e g → g < 4 := by
    intro e he g hg
    rcases hg with hg | hg
    · exact hface e (List.mem_range.2 he) 0 (by simp) g hg
    · exact hface e (List.mem_range.2 he) 1 (by simp) g hg
  refine ⟨demoTri, demoCone, demoPs2, _, demoTables2, M, hv, hw, by rw [nF, nV']; exact hrec, ?_, ?_, by rw [hreg]; decide, ?_, hreg⟩
  · rw [hreg, nF]
    intro x hx
    have hx1 : (x.1 = 4 ∨ x.1 = 5 ∨ x.1 = 7) ∧ x.2 = 0 := by
      simp only [List.mem_cons, List.not_mem_nil, or_false] at hx
      rcases hx with rfl | rfl | rfl <;> simp
    obtain ⟨g, g1, g2, g3⟩ := on _ hx1.1
    exact ⟨g, by rw [nF']; exact g1, g2, by rw [nF', hx1.2]; omega, by rw [hx1.2]; exact g3⟩
  · rintro ⟨s, c⟩ hk
    obtain ⟨v, hv'⟩ := List.exists_mem_of_ne_nil _ hk
    obtain ⟨i, e, f, -, hi, h1, h2, h3⟩ := ((hrec.cut s c).2 v).1 hv'
    rw [hreg] at hi
    have he : e < 9 ∧ f = 0 := by
      have hm := List.mem_of_getElem? hi
      simp only [List.mem_cons, List.not_mem_nil, or_false, Prod.mk.injEq] at hm
      omega
    have hs0 : s = 0 := by omega
    subst hs0
    have hc4 : c < 4 := by
      rcases h3 with ⟨-, h⟩ | ⟨h, -⟩
      · omega
      · exact hon e he.1 c h
    have : c = 1 ∨ c = 2 ∨ c = 3 := by omega
    rcases this with rfl | rfl | rfl
    · exact hcut 1 (by simp)
    · exact hcut 2 (by simp)
    · exact hcut 3 (by simp)
  · intro e e' g g' he he' hne h1 h2 h3 h4
    have hE : demoPs2.nE = 9 := by decide +kernel
    have l1 : e < 9 := by have := he.1; omega
    have l2 : e' < 9 := by have := he'.1; omega
    have all : ∀ e ∈ List.range 9, ∀ e' ∈ List.range 9, ∀ g ∈ List.range 4, ∀ g' ∈ List.range 4, g ≠ g' → OnEdge demoPs2 e g → OnEdge demoPs2 e g' → OnEdge demoPs2 e' g →
        OnEdge demoPs2 e' g' → e = e' := by decide +kernel
    exact all e (List.mem_range.2 l1) e' (List.mem_range.2 l2) g (List.mem_range.2 (hon e l1 g h1)) g' (List.mem_range.2 (hon e l1 g' h2)) hne h1 h2 h3 h4

-- all stages computed: a loop of three edges; its points pierce face 0, which is reported
example : ((cutEdges demoPs2 7 demoTables2.reg id (fun _ _ _ => true) demoTables2.cut [(0, 1), (0, 2), (0, 3)] (addPoints (copyVertices () demoPs2).1 demoTables2.pts)).bind
    (fun st => (paths (endsOf st.m0) [9, 7, 8] st.cutEdges).bind (fun r => detect (endsOf st.m0) (tested demoTables2.reg 7)
      (r.seqs.map (fun seq => (seq, (classify demoPs2 1 7 demoTables2.reg (endsOf st.m0) seq).getD ⟨true, true, true⟩, 8)))))) = some [(0, [8, 7, 9])] := by
  decide +kernel

end Mcut.Floating
