import Verif.Spec.C33
import Verif.Lemmas.PsView
import Verif.Props.C30
import Verif.Props.C31
import Verif.Props.C17

/-! Helper lemmas for C33 and C34. -/
namespace Mcut.Preproc
open Mcut.Hmesh Mcut.Sched
variable {P : Type}

/-! ### building the mesh -/

/-- At most one halfedge from one vertex to another. -/
def Uniq (m : Mesh P) : Prop := ∀ x y, LiveH m x → LiveH m y → (m.hd (opposite x)).t = (m.hd (opposite y)).t → (m.hd x).t = (m.hd y).t → x = y

/-- All halfedges belong to the given (undirected) edges. -/
def Only (m : Mesh P) (E : List (Nat × Nat)) : Prop := ∀ x, LiveH m x → ((m.hd (opposite x)).t, (m.hd x).t) ∈ E ∨ ((m.hd x).t, (m.hd (opposite x)).t) ∈ E

theorem getOrAdd_uniq {m : Mesh P} {new : Nat} {acc : List Nat} (I : Inv m new acc) (v0 v1 : Nat) (hne : v0 ≠ v1) (E : List (Nat × Nat))
    (U : Uniq m) (O : Only m E) : Uniq (m.getOrAdd v0 v1).1 ∧ Only (m.getOrAdd v0 v1).1 (E ++ [(v0, v1)]) := by
  unfold Mesh.getOrAdd
  cases hl : m.halfedge v0 v1 true with
  | some h =>
    refine ⟨U, fun x hx => ?_⟩
    rcases O x hx with h | h
    · exact Or.inl (List.mem_append_left _ h)
    · exact Or.inr (List.mem_append_left _ h)
  | none =>
    have hno := (halfedge_none I v0 v1 hne).1 hl
    obtain ⟨e1, A⟩ := addEdge_spec I v0 v1 hne
    simp only
    generalize newEdge m = e at *
    have t0 : ((m.addEdge v0 v1).1.hd (2 * e)).t = v1 := by rw [A.hd0]
    have t1 : ((m.addEdge v0 v1).1.hd (2 * e + 1)).t = v0 := by rw [A.hd1]
    have told : ∀ x, LiveH m x → ((m.addEdge v0 v1).1.hd x).t = (m.hd x).t := fun x hx => by rw [A.old I hx]
    have no1 : ∀ x, LiveH m x → (m.hd (opposite x)).t = v0 → (m.hd x).t = v1 → False := by
      intro x hx h1 h2
      exact hno x hx (by rw [I.source hx, h1]) h2
    have no2 : ∀ x, LiveH m x → (m.hd (opposite x)).t = v1 → (m.hd x).t = v0 → False := by
      intro x hx h1 h2
      exact no1 (opposite x) (I.opp_live hx) (by rw [opposite_opposite, h2]) h1
    have hcase : ∀ x, LiveH (m.addEdge v0 v1).1 x → (LiveH m x ∧ ((m.addEdge v0 v1).1.hd x).t = (m.hd x).t ∧
        ((m.addEdge v0 v1).1.hd (opposite x)).t = (m.hd (opposite x)).t) ∨
        (x = 2 * e ∧ ((m.addEdge v0 v1).1.hd x).t = v1 ∧ ((m.addEdge v0 v1).1.hd (opposite x)).t = v0) ∨
        (x = 2 * e + 1 ∧ ((m.addEdge v0 v1).1.hd x).t = v0 ∧ ((m.addEdge v0 v1).1.hd (opposite x)).t = v1) := by
      intro x hx
      rcases (A.liveH I x).1 hx with h | h
      · exact Or.inl ⟨h, told x h, told _ (I.opp_live h)⟩
      · rcases div_eq_cases x e h with rfl | rfl
        · exact Or.inr (Or.inl ⟨rfl, t0, by rw [opposite_even]; exact t1⟩)
        · exact Or.inr (Or.inr ⟨rfl, t1, by rw [opposite_odd]; exact t0⟩)
    constructor
    · intro x y hx hy hs ht
      rcases hcase x hx with ⟨lx, a1, a2⟩ | ⟨ex, a1, a2⟩ | ⟨ex, a1, a2⟩ <;>
        rcases hcase y hy with ⟨ly, b1, b2⟩ | ⟨ey, b1, b2⟩ | ⟨ey, b1, b2⟩ <;> rw [a1, b1] at ht <;> rw [a2, b2] at hs
      · exact U x y lx ly hs ht
      · exact (no1 x lx hs ht).elim
      · exact (no2 x lx hs ht).elim
      · exact (no1 y ly hs.symm ht.symm).elim
      · rw [ex, ey]
      · exact absurd hs hne
      · exact (no2 y ly hs.symm ht.symm).elim
      · exact absurd ht hne
      · rw [ex, ey]
    · intro x hx
      rcases hcase x hx with ⟨lx, a1, a2⟩ | ⟨ex, a1, a2⟩ | ⟨ex, a1, a2⟩ <;> rw [a1, a2]
      · rcases O x lx with h | h
        · exact Or.inl (List.mem_append_left _ h)
        · exact Or.inr (List.mem_append_left _ h)
      · left; simp
      · right; simp

theorem mark_uniq (m : Mesh P) (h new : Nat) (E : List (Nat × Nat)) (U : Uniq m) (O : Only m E) : Uniq (m.mark h new) ∧ Only (m.mark h new) E := by
  have e : ∀ x, ((m.mark h new).hd x).t = (m.hd x).t := fun x => (mark_hd m h new x).1
  constructor
  · intro x y hx hy hs ht
    rw [e, e] at hs ht
    exact U x y hx hy hs ht
  · intro x hx
    rw [e, e]; exact O x hx

theorem loop_uniq (new : Nat) (L : List (Nat × Nat)) : ∀ (m : Mesh P) (acc : List Nat) (E : List (Nat × Nat)), Inv m new acc →
    (∀ p ∈ L, LiveV m p.1 ∧ LiveV m p.2 ∧ p.1 ≠ p.2) → Uniq m → Only m E →
    Uniq (Mesh.addFaceLoop new m acc L).1 ∧ Only (Mesh.addFaceLoop new m acc L).1 (E ++ L) := by
  induction L with
  | nil => intro m acc E _ _ U O; simpa [Mesh.addFaceLoop] using ⟨U, O⟩
  | cons q L ih =>
    obtain ⟨v0, v1⟩ := q
    intro m acc E I hL U O
    have hq := hL (v0, v1) (by simp)
    obtain ⟨I1, l1, t1, s1, F1, o1, -⟩ := getOrAdd_spec I v0 v1 hq.1 hq.2.1 hq.2.2
    obtain ⟨U1, O1⟩ := getOrAdd_uniq I v0 v1 hq.2.2 E U O
    unfold Mesh.addFaceLoop
    simp only
    by_cases hc : ((m.getOrAdd v0 v1).1.face (m.getOrAdd v0 v1).2).isSome = true
    · rw [if_pos hc]
      refine ⟨U1, fun x hx => ?_⟩
      have hsub : ∀ p, p ∈ E ++ [(v0, v1)] → p ∈ E ++ (v0, v1) :: L := by
        intro p hp
        rcases List.mem_append.1 hp with h | h
        · exact List.mem_append_left _ h
        · rw [List.mem_singleton] at h; subst h; simp
      rcases O1 x hx with h | h
      · exact Or.inl (hsub _ h)
      · exact Or.inr (hsub _ h)
    · rw [if_neg hc]
      have hfn : ((m.getOrAdd v0 v1).1.hd (m.getOrAdd v0 v1).2).f = none := by
        simpa [Mesh.face] using hc
      have I2 := mark_inv I1 l1 hfn
      obtain ⟨U2, O2⟩ := mark_uniq (m.getOrAdd v0 v1).1 (m.getOrAdd v0 v1).2 new _ U1 O1
      have := ih ((m.getOrAdd v0 v1).1.mark (m.getOrAdd v0 v1).2 new) (acc ++ [(m.getOrAdd v0 v1).2]) (E ++ [(v0, v1)]) I2 (by
        intro p hp
        have := hL p (by simp [hp])
        unfold LiveV at *
        show Live (m.getOrAdd v0 v1).1.nV (m.getOrAdd v0 v1).1.vRem _ ∧ Live (m.getOrAdd v0 v1).1.nV (m.getOrAdd v0 v1).1.vRem _ ∧ _
        rw [F1.nV, F1.vRem]; exact this) U2 O2
      rw [List.append_assoc] at this
      exact this

/-- What is known about the mesh after some faces were added. -/
structure Built (d : P) (pts : List P) (fs : List (List Nat)) (m : Mesh P) : Prop where
  reach : Reachable d m
  vRem : m.vRem = []
  fRem : m.fRem = []
  nV : m.nV = pts.length
  nF : m.nF = fs.length
  pos : ∀ v p, pts[v]? = some p → m.pos v = p
  tgts : ∀ i f, fs[i]? = some f → (m.fh i).map (fun h => (m.hd h).t) = f.rotate 1
  srcs : ∀ i f, fs[i]? = some f → (m.fh i).map (fun h => (m.hd (opposite h)).t) = f
  uniq : Uniq m
  only : Only m (fs.flatMap cycPairs)

theorem Built.empty (d : P) : Built d [] [] (Mesh.empty d) where
  reach := .empty
  vRem := rfl
  fRem := rfl
  nV := rfl
  nF := rfl
  pos := by simp
  tgts := by simp
  srcs := by simp
  uniq := fun x _ hx => absurd hx.1 (by simp [Mesh.empty])
  only := fun x hx => absurd hx.1 (by simp [Mesh.empty])

theorem Built.addVertex {d : P} {pts : List P} {m : Mesh P} (B : Built d pts [] m) (p : P) : Built d (pts ++ [p]) [] (m.addVertex p).1 := by
  have hr : Reachable d (m.addVertex p).1 := .step m (.addVertex p) B.reach trivial
  have e : (m.addVertex p).1 = { m with nV := m.nV + 1, vh := upd m.vh m.nV [], pos := upd m.pos m.nV p } := by
    simp [Mesh.addVertex, B.vRem, Mesh.numVertices]
  rw [e] at hr ⊢
  have hb := B.nV
  refine ⟨hr, B.vRem, B.fRem, by simp [hb], B.nF, ?_, by simp, by simp, B.uniq, B.only⟩
  intro v q hq
  simp only
  by_cases hv : v = m.nV
  · subst hv
    rw [upd_same]
    rw [List.getElem?_append_right (by omega), hb] at hq
    simpa using hq
  · rw [upd_other _ _ _ _ hv]
    have hlt : v < pts.length := by
      have := (List.getElem?_eq_some_iff.1 hq).1
      simp at this; omega
    rw [List.getElem?_append_left hlt] at hq
    exact B.pos v q hq

theorem built_vertices (d : P) (pts : List P) : Built d pts [] (addVertices (Mesh.empty d) pts) := by
  have : ∀ (l done : List P) (m : Mesh P), Built d done [] m → Built d (done ++ l) [] (l.foldl (fun m p => (m.addVertex p).1) m) := by
    intro l
    induction l with
    | nil => intro done m B; simpa using B
    | cons p l ih =>
      intro done m B
      have := ih _ _ (B.addVertex p)
      simpa using this
  have h := this pts [] _ (Built.empty d)
  rw [List.nil_append] at h
  exact h

theorem pairs_of_maps {α β : Type} (s t : α → β) : ∀ (l : List α) (f : List β), l.map s = f → l.map t = f.rotate 1 → l.map (fun h => (s h, t h)) = cycPairs f := by
  intro l f h1 h2
  unfold cycPairs
  rw [← h2, ← h1, List.zip_map']

theorem Built.face_pairs {d : P} {pts : List P} {fs : List (List Nat)} {m : Mesh P} (B : Built d pts fs m) (i : Nat) (f : List Nat) (hf : fs[i]? = some f) :
    (m.fh i).map (fun h => ((m.hd (opposite h)).t, (m.hd h).t)) = cycPairs f :=
  pairs_of_maps _ _ _ _ (B.srcs i f hf) (B.tgts i f hf)

theorem Built.liveF {d : P} {pts : List P} {fs : List (List Nat)} {m : Mesh P} (B : Built d pts fs m) (i : Nat) : LiveF m i ↔ i < fs.length := by
  unfold LiveF Live; rw [B.fRem, B.nF]; simp

theorem Built.liveV {d : P} {pts : List P} {fs : List (List Nat)} {m : Mesh P} (B : Built d pts fs m) (v : Nat) : LiveV m v ↔ v < pts.length := by
  unfold LiveV Live; rw [B.vRem, B.nV]; simp

/-- A directed edge is free iff no face uses it. -/
theorem Built.free_iff {d : P} {pts : List P} {fs : List (List Nat)} {m : Mesh P} (B : Built d pts fs m) (p : Nat × Nat) (hne : p.1 ≠ p.2) :
    EdgeFree m p ↔ p ∉ fs.flatMap cycPairs := by
  have W := reachable_wf B.reach
  constructor
  · intro hfree hp
    obtain ⟨f, hf, hpf⟩ := List.mem_flatMap.1 hp
    obtain ⟨i, hi, rfl⟩ := List.getElem_of_mem hf
    have hfp := B.face_pairs i fs[i] (by simp [hi])
    rw [← hfp] at hpf
    obtain ⟨x, hx, rfl⟩ := List.mem_map.1 hpf
    have hx' := (W.faceOK ((B.liveF i).2 hi)).mem x hx
    have hsome : ∃ h, m.halfedge (m.hd (opposite x)).t (m.hd x).t true = some h := by
      cases hh : m.halfedge (m.hd (opposite x)).t (m.hd x).t true with
      | some h => exact ⟨h, rfl⟩
      | none => exact absurd rfl ((halfedge_none W _ _ hne).1 hh x hx'.1 (W.source hx'.1))
    obtain ⟨h, hh⟩ := hsome
    have hs := halfedge_some W _ _ hne h hh
    have : h = x := B.uniq h x hs.1 hx'.1 hs.2.1 hs.2.2
    subst this
    have := hfree h hh
    rw [hx'.2] at this; cases this
  · intro hp h hh
    have hs := halfedge_some W _ _ hne h hh
    cases hf : (m.hd h).f with
    | none => rfl
    | some g =>
      obtain ⟨lg, hg⟩ := W.ofFace hs.1 hf
      have hi := (B.liveF g).1 lg
      exfalso
      apply hp
      refine List.mem_flatMap.2 ⟨fs[g], List.getElem_mem hi, ?_⟩
      rw [← B.face_pairs g fs[g] (by simp [hi])]
      refine List.mem_map.2 ⟨h, hg, ?_⟩
      rw [hs.2.1, hs.2.2]

theorem nodup_good {m : Mesh P} {f : List Nat} (hl : 3 ≤ f.length) (hnd : f.Nodup) (hv : ∀ v ∈ f, LiveV m v) : GoodPolygon m f := by
  refine ⟨hl, hv, fun i hi he => ?_⟩
  have hj : (i + 1) % f.length < f.length := Nat.mod_lt _ (by omega)
  rw [List.getElem?_eq_getElem hi, List.getElem?_eq_getElem hj, Option.some.injEq] at he
  have := (List.Nodup.getElem_inj_iff hnd).1 he
  by_cases h1 : i + 1 < f.length
  · rw [Nat.mod_eq_of_lt h1] at this; omega
  · have h2 : i + 1 = f.length := by omega
    rw [h2, Nat.mod_self] at this; omega

theorem Built.accept {d : P} {pts : List P} {fs : List (List Nat)} {m : Mesh P} (B : Built d pts fs m) (f : List Nat) (G : GoodFace pts.length f) :
    ((m.addFace f).2 ≠ none ↔ ∀ p ∈ cycPairs f, p ∉ fs.flatMap cycPairs) ∧
    ((m.addFace f).2 ≠ none → Built d pts (fs ++ [f]) (m.addFace f).1) := by
  have W := reachable_wf B.reach
  have GP : GoodPolygon m f := nodup_good G.1 G.2.1 (fun v hv => (B.liveV v).2 (G.2.2 v hv))
  have hiff : (m.addFace f).2 ≠ none ↔ ∀ p ∈ cycPairs f, p ∉ fs.flatMap cycPairs := by
    rw [← C31_insertable_exact B.reach GP G.2.1, isInsertable_iff]
    constructor
    · intro h p hp; exact (B.free_iff p (GP.pairs p hp).2.2).1 (h p hp)
    · intro h p hp; exact (B.free_iff p (GP.pairs p hp).2.2).2 (h p hp)
  refine ⟨hiff, fun hok => ?_⟩
  obtain ⟨idx, hidx⟩ := Option.ne_none_iff_exists'.1 hok
  have A := addFace_spec W GP idx hidx
  have hr : Reachable d (m.addFace f).1 := .step m (.addFace f) B.reach ⟨GP, hok⟩
  have hidx' : idx = fs.length := by rw [A.idx_eq]; simp [newFace, B.fRem, B.nF]
  subst hidx'
  have hold : ∀ i g, fs[i]? = some g → i < fs.length := fun i g h => (List.getElem?_eq_some_iff.1 h).1
  have hloop : Uniq (m.addFace f).1 ∧ Only (m.addFace f).1 ((fs ++ [f]).flatMap cycPairs) := by
    have L := loop_uniq (newFace m) (cycPairs f) (loopMesh m) [] (fs.flatMap cycPairs) W.loop GP.pairs B.uniq B.only
    rw [addFace_result] at hidx
    have hc : (loopResult m f).2.2 = true := by by_contra hc; rw [if_neg hc] at hidx; simp at hidx
    rw [addFace_nil f B.fRem, if_pos hc]
    have hlive : ∀ m' : Mesh P, ∀ L x, LiveH (m'.link L) x ↔ LiveH m' x := by
      intro m' L x
      have s := link_same L m'
      unfold LiveH Live; rw [s.2.2.1, s.2.2.2.2.2.2.2.2.2.2.1]
    have ht : ∀ m' : Mesh P, ∀ L x, ((m'.link L).hd x).t = (m'.hd x).t := fun m' L x => (link_frame L m' x).1
    have hE : (fs ++ [f]).flatMap cycPairs = fs.flatMap cycPairs ++ cycPairs f := by simp [List.flatMap_append]
    rw [hE]
    constructor
    · intro x y hx hy hs h2
      rw [hlive] at hx hy
      rw [ht, ht] at hs h2
      exact L.1 x y hx hy hs h2
    · intro x hx
      rw [hlive] at hx
      rw [ht, ht]
      exact L.2 x hx
  refine ⟨hr, by rw [A.vRem, B.vRem], by rw [A.fRem, B.fRem]; rfl, by rw [A.nV, B.nV], by rw [A.nF, if_pos B.fRem, B.nF]; simp, ?_, ?_, ?_, hloop.1, hloop.2⟩
  · intro v p hp; rw [A.pos]; exact B.pos v p hp
  · intro i g hg
    by_cases hi : i = fs.length
    · subst hi
      rw [List.getElem?_append_right (by omega)] at hg
      simp at hg; subst hg; exact A.list
    · have hlt : i < fs.length := by have := (List.getElem?_eq_some_iff.1 hg).1; simp at this; omega
      rw [List.getElem?_append_left hlt] at hg
      rw [A.old_list i ((B.liveF i).2 hlt), ← B.tgts i g hg]
      apply List.map_congr_left
      intro x hx
      exact (A.old_h x ((W.faceOK ((B.liveF i).2 hlt)).mem x hx).1).2.1
  · intro i g hg
    by_cases hi : i = fs.length
    · subst hi
      rw [List.getElem?_append_right (by omega)] at hg
      simp at hg; subst hg; exact A.srcs
    · have hlt : i < fs.length := by have := (List.getElem?_eq_some_iff.1 hg).1; simp at this; omega
      rw [List.getElem?_append_left hlt] at hg
      rw [A.old_list i ((B.liveF i).2 hlt), ← B.srcs i g hg]
      apply List.map_congr_left
      intro x hx
      exact (A.old_h _ (W.opp_live ((W.faceOK ((B.liveF i).2 hlt)).mem x hx).1)).2.1

theorem cycPairs_nodup (f : List Nat) (h : f.Nodup) : (cycPairs f).Nodup := by
  have : ((cycPairs f).map Prod.fst).Nodup := by rw [cycPairs_fst]; exact h
  exact List.Nodup.of_map _ this

theorem addFaces_spec {d : P} {pts : List P} : ∀ (fs done : List (List Nat)) (m : Mesh P), Built d pts done m → (∀ f ∈ fs, GoodFace pts.length f) →
    (done.flatMap cycPairs).Nodup →
    ((addFaces m fs).2 = true ↔ ((done ++ fs).flatMap cycPairs).Nodup) ∧ ((addFaces m fs).2 = true → Built d pts (done ++ fs) (addFaces m fs).1) := by
  intro fs
  induction fs with
  | nil => intro done m B _ hn; simpa [addFaces] using ⟨hn, B⟩
  | cons f fs ih =>
    intro done m B hg hn
    have hgf := hg f (by simp)
    have A := B.accept f hgf
    unfold addFaces
    simp only
    by_cases hr : (m.addFace f).2 = none
    · rw [if_pos hr]
      refine ⟨⟨by simp, fun hnd => ?_⟩, by simp⟩
      exfalso
      have : ∀ p ∈ cycPairs f, p ∉ done.flatMap cycPairs := by
        intro p hp hq
        simp only [List.flatMap_append, List.flatMap_cons] at hnd
        rw [List.nodup_append] at hnd
        exact hnd.2.2 p hq p (List.mem_append_left _ hp) rfl
      exact A.1.2 this hr
    · rw [if_neg hr]
      have B' := A.2 hr
      have hn' : ((done ++ [f]).flatMap cycPairs).Nodup := by
        simp only [List.flatMap_append, List.flatMap_cons, List.flatMap_nil, List.append_nil]
        rw [List.nodup_append]
        refine ⟨hn, cycPairs_nodup f hgf.2.1, fun a ha b hb => ?_⟩
        rintro rfl
        exact A.1.1 hr a hb ha
      have := ih (done ++ [f]) _ B' (fun g hg' => hg g (by simp [hg'])) hn'
      simpa using this

theorem dirEdges_eq (f : List Nat) : dirEdges f = cycPairs f := by
  unfold dirEdges cycPairs
  apply List.ext_getElem
  · simp
  · intro i h1 h2
    simp only [List.length_map, List.length_range] at h1
    simp only [List.getElem_map, List.getElem_range, List.getElem_zip, List.getElem_rotate]
    have hj : (i + 1) % f.length < f.length := Nat.mod_lt _ (by omega)
    simp [List.getD_eq_getElem?_getD, h1, hj]

/-! ### the prefix sums -/

theorem flatMap_get' {α : Type} (f g : Nat → List α) (n j : Nat) (hj : j < n) (hl : ∀ i, i < n → (f i).length = (g i).length)
    (he : f j = g j) (r : Nat) (hr : r < (g j).length) :
    ((List.range n).flatMap f)[((List.range j).map (fun i => (g i).length)).sum + r]? =
      ((List.range n).flatMap g)[((List.range j).map (fun i => (g i).length)).sum + r]? := by
  obtain ⟨m, rfl⟩ : ∃ m, n = j + (m + 1) := ⟨n - j - 1, by omega⟩
  have e : List.range (j + (m + 1)) = List.range j ++ (j :: (List.range m).map (fun x => j + (x + 1))) := by
    rw [List.range_add, List.range_succ_eq_map]; simp [Function.comp_def]
  have l1 : ∀ h : Nat → List α, (∀ i, i < j → (h i).length = (g i).length) → ((List.range j).flatMap h).length = ((List.range j).map (fun i => (g i).length)).sum := by
    intro h hh
    rw [List.length_flatMap]; congr 1
    apply List.map_congr_left; intro i hi; exact hh i (List.mem_range.1 hi)
  have lf := l1 f (fun i hi => hl i (by omega))
  have lg := l1 g (fun i hi => rfl)
  rw [e]
  simp only [List.flatMap_append, List.flatMap_cons]
  rw [he]
  generalize ((List.range j).map (fun i => (g i).length)).sum = q at *
  rw [List.getElem?_append_right (by omega), lf, List.getElem?_append_left (by omega)]
  rw [List.getElem?_append_right (by omega), lg, List.getElem?_append_left (by omega)]

open PrefixSum in
/-- A finished chunk holds its final prefix sums. -/
theorem chunk_all (c : Nat → List W) (n : Nat) (hc : ∀ i, i < n → c i ≠ []) (s : St)
    (hr : Reach (step n) (init c) s) (j : Nat) (hj : j < n) (hd : s.pc j = .done) (r : Nat) (hrl : r < (c j).length) :
    (memory n s)[((List.range j).map (fun i => (c i).length)).sum + r]? =
      (Spec.prefixSums ((List.range n).flatMap c))[((List.range j).map (fun i => (c i).length)).sum + r]? := by
  have hinv := reach_inv c n hc s hr
  have hl : ∀ i, ((Spec.prefixSums (c i)).map (· + off c i)).length = (c i).length := by
    intro i; rw [List.length_map, prefixSums_length]
  have := flatMap_get' s.data (fun i => (Spec.prefixSums (c i)).map (· + off c i)) n j hj
    (fun i hi => by rw [good_length c n s i (hinv i hi), hl]) (by
      have h := hinv j hj; simp only [Good, hd] at h; exact h.1) r (by rw [hl]; exact hrl)
  simp only [hl] at this
  rw [flat_done] at this
  exact this

/-- Every prefix sum that a thread with the same blocks as the sum reads is final. -/
theorem view_all (sizes : List Nat) (avail : Nat) (ps : Nat × Nat → List Nat) (hl : 0 < sizes.length) (ha : 0 < avail)
    (hov : sizes.length + 1024 ≤ 2 ^ 32) (hs : sizes.sum < 2 ^ 32)
    (hv : CC.PsViews sizes avail 1024 ps)
    (bs : List (Nat × Nat)) (hbs : parallelForBlocks sizes.length avail 1024 = .ok bs) (b : Nat × Nat) (hb : b ∈ bs)
    (q : Nat) (hq1 : b.1 ≤ q) (hq2 : q < b.2) :
    (ps b).getD q 0 = (CC.sums 0 sizes).getD q 0 := by
  obtain ⟨i, hi, rfl⟩ := List.getElem_of_mem hb
  obtain ⟨bt, s, hbt, hr, hret, hown, hps⟩ := hv bs hbs i bs[i] (by simp [hi])
  rw [hps]
  rw [hbs] at hbt; injection hbt with hbt; subst hbt
  obtain ⟨bt', hbt', hcons⟩ := CC.blocks_ok sizes.length avail 1024 hl ha (by decide) hov
  rw [hbs] at hbt'; injection hbt' with hbt'; subst hbt'
  let xs := sizes.map (BitVec.ofNat 32)
  have hxl : xs.length = sizes.length := by simp [xs]
  have hflat : (List.range bs.length).flatMap (PrefixSum.chunksOf xs bs) = xs ∧ ∀ i, i < bs.length → PrefixSum.chunksOf xs bs i ≠ [] := by
    obtain ⟨p, hp, hpos, hle, hb, hbe, -⟩ := schedulingParams_ok xs.length avail 1024 (by omega) ha (by decide) (by omega)
    have hbt2 := hbs
    rw [← hxl] at hbt2
    simp only [parallelForBlocks, hp] at hbt2; injection hbt2 with hbt2
    have h1 : p.numThreads * p.blockSize ≤ xs.length := by
      rw [hbe]; exact Nat.mul_div_le xs.length p.numThreads
    have h2 : p.numThreads * p.blockSize = (p.numThreads - 1) * p.blockSize + p.blockSize := by
      have : p.numThreads = (p.numThreads - 1) + 1 := by omega
      rw [this, Nat.succ_mul]; simp
    have := PrefixSum.chunksOf_flat xs 0 (p.numThreads - 1) p.blockSize (by omega) hb
    rw [List.drop_zero] at this
    rw [← hbt2, blocksFrom_length]; exact this
  have hlen : ∀ i, (PrefixSum.chunksOf xs bs i).length = (match bs[i]? with | some b => b.2 - b.1 | none => 0) := by
    intro i
    unfold PrefixSum.chunksOf
    cases h : bs[i]? with
    | none => rfl
    | some b =>
      have := CC.consec_bound _ _ _ hcons b (List.mem_of_getElem? h)
      simp only [List.length_take, List.length_drop]; omega
  have hd : s.pc i = .done := by
    by_cases hlast : i + 1 < bs.length
    · exact hown i (by rw [if_pos hlast]) hi
    · have : i = bs.length - 1 := by omega
      rw [this]; exact hret
  have hli : (PrefixSum.chunksOf xs bs i).length = bs[i].2 - bs[i].1 := by
    rw [hlen, List.getElem?_eq_getElem hi]
  have h1 := chunk_all _ _ hflat.2 s hr i hi hd (q - bs[i].1) (by
    show _ < (PrefixSum.chunksOf xs bs i).length
    rw [hli]; omega)
  have h2 := CC.consec_start _ _ _ hcons i bs[i] (by simp [hi])
  rw [hflat.1] at h1
  have h3 : (List.range i).map (fun i => (PrefixSum.chunksOf xs bs i).length) = (List.range i).map (fun i => match bs[i]? with | some b => b.2 - b.1 | none => 0) := by
    apply List.map_congr_left; intro i _; exact hlen i
  rw [Nat.add_zero] at h2
  have h4 : ((List.range i).map (fun i => (PrefixSum.chunksOf xs bs i).length)).sum + (q - bs[i].1) = q := by
    have h5 := (congrArg List.sum h3).trans h2
    have h6 : bs[i].1 + (q - bs[i].1) = q := by omega
    exact (congrArg (· + (q - bs[i].1)) h5).trans h6
  rw [h4] at h1
  rw [← CC.sums_prefix _ hs, List.getD_eq_getElem?_getD, List.getD_eq_getElem?_getD, List.getElem?_map, List.getElem?_map, h1]

/-! ### reading the faces -/

/-- The vector of a face after `j` of its indices. -/
theorem fillFace_spec (nV : Nat) (l : List Nat) (idx : Nat → Nat) (hidx : ∀ j v, l[j]? = some v → idx j = v) :
    ∀ r j, j + r = l.length → (l.take j).Nodup → (∀ v ∈ l.take j, v < nV) →
      ((fillFace nV idx ((l.take j).map some ++ List.replicate r none) j r).2 = true ↔ l.Nodup ∧ ∀ v ∈ l, v < nV) ∧
      ((fillFace nV idx ((l.take j).map some ++ List.replicate r none) j r).2 = true →
        (fillFace nV idx ((l.take j).map some ++ List.replicate r none) j r).1 = l.map some) := by
  intro r
  induction r with
  | zero =>
    intro j hj hn hv
    have : l.take j = l := List.take_of_length_le (by omega)
    rw [this] at hn hv
    simp [fillFace, this, hn]
    exact hv
  | succ r ih =>
    intro j hj hn hv
    have hjl : j < l.length := by omega
    have hi := hidx j l[j] (by simp [hjl])
    have htake : l.take (j + 1) = l.take j ++ [l[j]] := by rw [List.take_succ_eq_append_getElem hjl]
    unfold fillFace
    simp only [hi]
    by_cases h1 : nV ≤ l[j]
    · rw [if_pos h1]
      refine ⟨⟨by simp, fun h => ?_⟩, by simp⟩
      have := h.2 l[j] (List.getElem_mem hjl); omega
    · rw [if_neg h1]
      by_cases h2 : ((l.take j).map some ++ List.replicate (r + 1) none).contains (some l[j]) = true
      · rw [if_pos h2]
        refine ⟨⟨by simp, fun h => ?_⟩, by simp⟩
        exfalso
        have hmem : l[j] ∈ l.take j := by
          simp only [List.contains_eq_mem, List.mem_append, List.mem_map, decide_eq_true_eq] at h2
          rcases h2 with ⟨a, ha, he⟩ | h
          · injection he with he; subst he; exact ha
          · simp at h
        have : (l.take (j + 1)).Nodup := h.1.sublist (List.take_sublist _ _)
        rw [htake, List.nodup_append] at this
        exact this.2.2 _ hmem _ (by simp) rfl
      · rw [if_neg h2]
        have hnm : l[j] ∉ l.take j := by
          intro hm; apply h2
          simp only [List.contains_eq_mem, List.mem_append, List.mem_map, decide_eq_true_eq]
          exact Or.inl ⟨_, hm, rfl⟩
        have hset : ((l.take j).map some ++ List.replicate (r + 1) none).set j (some l[j]) = (l.take (j + 1)).map some ++ List.replicate r none := by
          rw [htake, List.replicate_succ]
          rw [List.set_append_right _ _ (by simp)]
          simp only [List.length_map, List.length_take, Nat.min_eq_left (Nat.le_of_lt hjl), Nat.sub_self, List.set_cons_zero, List.map_append,
            List.map_cons, List.map_nil, List.append_assoc, List.singleton_append]
        rw [hset]
        refine ih (j + 1) (by omega) ?_ ?_
        · rw [htake, List.nodup_append]
          refine ⟨hn, by simp, ?_⟩
          intro a ha b hb; simp at hb; subst hb; rintro rfl; exact hnm ha
        · rw [htake]
          intro v hv'
          rcases List.mem_append.1 hv' with h | h
          · exact hv v h
          · simp at h; subst h; omega


/-! ### the blocks -/

theorem splitBy_length : ∀ (ss l : List Nat), (splitBy ss l).length = ss.length := by
  intro ss
  induction ss with
  | nil => simp [splitBy]
  | cons s ss ih => intro l; simp [splitBy, ih]

theorem splitBy_get : ∀ (ss l : List Nat) (f : Nat) (h : f < ss.length), (splitBy ss l)[f]? = some ((l.drop (ss.take f).sum).take ss[f]) := by
  intro ss
  induction ss with
  | nil => simp
  | cons s ss ih =>
    intro l f h
    cases f with
    | zero => simp [splitBy]
    | succ f =>
      simp only [splitBy, List.getElem?_cons_succ, List.take_succ_cons, List.sum_cons, List.getElem_cons_succ]
      rw [ih _ f (by simpa using h), List.drop_drop]

theorem sums_get : ∀ (ss : List Nat) (a f : Nat) (h : f < ss.length), (CC.sums a ss).getD f 0 = a + (ss.take f).sum + ss[f] := by
  intro ss
  induction ss with
  | nil => simp
  | cons s ss ih =>
    intro a f h
    cases f with
    | zero => simp [CC.sums]
    | succ f =>
      simp only [CC.sums, List.getD_cons_succ, List.take_succ_cons, List.sum_cons, List.getElem_cons_succ]
      rw [ih _ f (by simpa using h)]; omega

theorem sum_take_le (ss : List Nat) (f : Nat) (h : f < ss.length) : (ss.take f).sum + ss[f] ≤ ss.sum := by
  have : ss.sum = (ss.take (f + 1)).sum + (ss.drop (f + 1)).sum := by rw [← List.sum_append, List.take_append_drop]
  rw [this, List.take_succ_eq_append_getElem h, List.sum_append]; simp

theorem Arrays.WellSized.length {a : Arrays} (w : a.WellSized) : a.sizesOf.length = a.numFaces := by
  unfold Arrays.sizesOf
  cases h : a.sizes with
  | none => simp
  | some l => simpa using w.sizes l h

theorem Arrays.WellSized.size {a : Arrays} (w : a.WellSized) (f : Nat) (h : f < a.numFaces) : a.size f = a.sizesOf[f]'(by rw [w.length]; exact h) := by
  have hl := w.length
  have : a.sizesOf[f]? = some (a.size f) := by
    unfold Arrays.size Arrays.sizesOf
    cases hs : a.sizes with
    | none => simp [h]
    | some l =>
      have := w.sizes l hs
      simp only [Option.getD_some]
      rw [List.getD_eq_getElem?_getD, List.getElem?_eq_getElem (by omega)]; rfl
  obtain ⟨_, h2⟩ := List.getElem?_eq_some_iff.1 this
  exact h2.symm

/-- Face `f` as the arrays describe it. -/
def faceAt (a : Arrays) (f : Nat) : List Nat := a.faces.getD f []

theorem Arrays.WellSized.face {a : Arrays} (w : a.WellSized) (f : Nat) (h : f < a.numFaces) :
    a.faces[f]? = some (faceAt a f) ∧ (faceAt a f).length = a.size f ∧ a.size f < 2 ^ 31 ∧
    ∀ ps : List Nat, ps.getD f 0 = (CC.sums 0 a.sizesOf).getD f 0 → ∀ j v, (faceAt a f)[j]? = some v → a.indices.getD (ps.getD f 0 - a.size f + j) 0 = v := by
  have hl : f < a.sizesOf.length := by rw [w.length]; exact h
  have e := splitBy_get a.sizesOf a.indices f hl
  have e2 : faceAt a f = (a.indices.drop (a.sizesOf.take f).sum).take a.sizesOf[f] := by
    unfold faceAt Arrays.faces; rw [List.getD_eq_getElem?_getD, e]; rfl
  have hle := sum_take_le a.sizesOf f hl
  have hs := w.size f h
  refine ⟨by rw [e2]; exact e, ?_, ?_, ?_⟩
  · rw [e2, List.length_take, List.length_drop, w.indices, hs]; omega
  · rw [hs]; have := w.fits.1; omega
  · intro ps hps j v hv
    rw [hps, sums_get _ _ _ hl, hs]
    rw [e2] at hv
    have hj : j < a.sizesOf[f] := by
      have := (List.getElem?_eq_some_iff.1 hv).1
      rw [List.length_take] at this; omega
    rw [List.getElem?_take_of_lt hj, List.getElem?_drop] at hv
    rw [List.getD_eq_getElem?_getD]
    have : 0 + (a.sizesOf.take f).sum + a.sizesOf[f] - a.sizesOf[f] + j = (a.sizesOf.take f).sum + j := by omega
    rw [this, hv]; rfl

theorem createBlock_spec {a : Arrays} (w : a.WellSized) (ps : List Nat) : ∀ fs : List Nat,
    (∀ f ∈ fs, f < a.numFaces ∧ ps.getD f 0 = (CC.sums 0 a.sizesOf).getD f 0) →
    ((createBlock a ps fs).2 = true ↔ ∀ f ∈ fs, GoodFace a.numVertices (faceAt a f)) ∧
    ((createBlock a ps fs).2 = true → (createBlock a ps fs).1 = fs.map (fun f => (faceAt a f).map some)) := by
  intro fs
  induction fs with
  | nil => simp [createBlock]
  | cons f fs ih =>
    intro h
    obtain ⟨hf, hps⟩ := h f (by simp)
    obtain ⟨h1, h2, h3, h4⟩ := w.face f hf
    have ih := ih (fun g hg => h g (by simp [hg]))
    unfold createBlock
    simp only
    by_cases hsz : a.size f < 3 ∨ 2 ^ 31 ≤ a.size f
    · rw [if_pos hsz]
      refine ⟨⟨by simp, fun hg => ?_⟩, by simp⟩
      have := (hg f (by simp)).1; omega
    · rw [if_neg hsz]
      have F := fillFace_spec a.numVertices (faceAt a f) (fun j => a.indices.getD (ps.getD f 0 - a.size f + j) 0) (h4 ps hps) (a.size f) 0 (by omega) (by simp) (by simp)
      simp only [List.take_zero, List.map_nil, List.nil_append] at F
      constructor
      · rw [Bool.and_eq_true, F.1, ih.1]
        simp only [List.mem_cons, forall_eq_or_imp, GoodFace]
        constructor
        · rintro ⟨g, r⟩; exact ⟨⟨by omega, g⟩, r⟩
        · rintro ⟨⟨_, g⟩, r⟩; exact ⟨g, r⟩
      · intro hb
        rw [Bool.and_eq_true] at hb
        simp only
        rw [F.2 hb.1, ih.2 hb.2]; rfl

theorem addFaces_append (m : Mesh P) (x y : List (List Nat)) :
    addFaces m (x ++ y) = if (addFaces m x).2 = true then addFaces (addFaces m x).1 y else addFaces m x := by
  induction x generalizing m with
  | nil => simp [addFaces]
  | cons f x ih =>
    have e : ∀ z, addFaces m (f :: z) = if (m.addFace f).2 = none then ((m.addFace f).1, false) else addFaces (m.addFace f).1 z := fun _ => rfl
    rw [List.cons_append, e, e]
    by_cases h : (m.addFace f).2 = none
    · simp [h]
    · simp only [h, if_false]; exact ih _

theorem descriptors_some (l : List (List Nat)) : descriptors (l.map (fun f => f.map some)) = l := by
  unfold descriptors
  rw [List.map_map]
  conv => rhs; rw [← List.map_id l]
  apply List.map_congr_left
  intro f _
  simp

theorem complete_some (l : List (List Nat)) (h : ∀ f ∈ l, 3 ≤ f.length) : complete (l.map (fun f => f.map some)) = true := by
  unfold complete
  rw [List.all_eq_true]
  intro x hx
  obtain ⟨f, hf, rfl⟩ := List.mem_map.1 hx
  have := h f hf
  simp [this]

/-- All blocks are good and no error was seen: the faces are added in order. -/
theorem collect_good (seen : Nat → Bool) : ∀ (bls : List (List (List Nat))) (i : Nat) (m : Mesh P),
    (∀ k, k < bls.length → seen (i + k) = false) → (∀ b ∈ bls, ∀ f ∈ b, 3 ≤ f.length) →
    collect seen i m true (bls.map (fun b => (b.map (fun f => f.map some), true))) = some (addFaces m bls.flatten) := by
  have dead : ∀ (l : List (List (List (Option Nat)) × Bool)) (i : Nat) (m : Mesh P), collect seen i m false l = some (m, false) := by
    intro l
    induction l with
    | nil => intro i m; rfl
    | cons b l ih => intro i m; simp only [collect, Bool.false_and, Bool.false_eq_true, if_false]; exact ih _ _
  intro bls
  induction bls with
  | nil => intro i m _ _; simp [collect, addFaces]
  | cons b bls ih =>
    intro i m hs hg
    have h0 : seen i = false := hs 0 (by simp)
    simp only [List.map_cons, collect, h0, Bool.not_false, Bool.and_self, if_true, addBlock]
    rw [if_pos (complete_some b (fun f hf => hg b (by simp) f hf)), descriptors_some]
    simp only [List.flatten_cons]
    rw [addFaces_append]
    by_cases hr : (addFaces m b).2 = true
    · rw [if_pos hr, hr]
      apply ih
      · intro k hk
        have := hs (k + 1) (by simpa using hk)
        rwa [Nat.add_assoc, Nat.add_comm 1 k]
      · intro b' hb' f hf; exact hg b' (by simp [hb']) f hf
    · rw [if_neg hr]
      have hr' : (addFaces m b).2 = false := by simpa using hr
      rw [hr', dead]
      rw [← hr']

/-- Whatever the threads do: no vector that is no polygon is added. -/
theorem collect_safe (seen : Nat → Bool) : ∀ (l : List (List (List (Option Nat)) × Bool)) (i : Nat) (m : Mesh P) (ok : Bool),
    (∀ k b, l[k]? = some b → seen (i + k) = false → complete b.1 = true) → ∃ r, collect seen i m ok l = some r := by
  intro l
  induction l with
  | nil => intro i m ok _; exact ⟨_, rfl⟩
  | cons b l ih =>
    intro i m ok h
    have ht : ∀ k b', l[k]? = some b' → seen (i + 1 + k) = false → complete b'.1 = true := by
      intro k b' hb hs
      refine h (k + 1) b' (by simpa using hb) ?_
      rwa [Nat.add_comm k 1, ← Nat.add_assoc]
    simp only [collect]
    by_cases hc : (ok && !seen i) = true
    · rw [if_pos hc]
      rw [Bool.and_eq_true] at hc
      have := h 0 b (by simp) (by simpa using hc.2)
      simp only [addBlock, this, if_true]
      exact ih _ _ _ ht
    · rw [if_neg hc]; exact ih _ _ _ ht

/-- The two cases of reading the arrays. -/
theorem load_cases {d : P} {a : Arrays} {pts : List P} {env : LoadEnv} (w : a.WellSized) (hp : pts.length = a.numVertices) (L : LoadOk a env) :
    ((∀ f, f < a.numFaces → GoodFace a.numVertices (faceAt a f)) →
      loadArrays d a pts env = (if (addFaces (addVertices (Mesh.empty d) pts) a.faces).2 = true then .mesh (addFaces (addVertices (Mesh.empty d) pts) a.faces).1 else .rejected)) ∧
    ((∃ f, f < a.numFaces ∧ ¬ GoodFace a.numVertices (faceAt a f)) → loadArrays d a pts env = .rejected) := by
  have hl := w.length
  obtain ⟨bs, hbs, hcons⟩ := CC.blocks_ok a.numFaces env.avail 1024 w.pos L.avail (by decide) w.fits.2
  obtain ⟨bs', hbs', hpos, -, -, hflat⟩ := C17_blocks_partition_partial a.numFaces env.avail 1024 w.pos L.avail (by decide) w.fits.2
  rw [hbs] at hbs'; injection hbs' with hbs'; subst hbs'
  have hblock : ∀ b ∈ bs, ∀ f ∈ blockIndices b, f < a.numFaces ∧ (env.ps b).getD f 0 = (CC.sums 0 a.sizesOf).getD f 0 := by
    intro b hb f hf
    have h1 := CC.consec_bound _ _ _ hcons b hb
    have h2 : b.1 ≤ f ∧ f < b.2 := by
      unfold blockIndices at hf
      rw [List.mem_range'_1] at hf; omega
    refine ⟨by omega, ?_⟩
    exact view_all a.sizesOf env.avail env.ps (by rw [hl]; exact w.pos) L.avail (by rw [hl]; exact w.fits.2) (by have := w.fits.1; omega) L.ps bs
      (by rw [hl]; exact hbs) b hb f h2.1 h2.2
  have hne : bs ≠ [] := by
    intro h; subst h
    simp [CC.Consec] at hcons; have := w.pos; omega
  have hbad : ∀ f, BadFace a f ↔ f < a.numFaces ∧ ¬ GoodFace a.numVertices (faceAt a f) := by
    intro f
    constructor
    · rintro ⟨l, h1, h2⟩
      have hf : f < a.numFaces := by
        have := (List.getElem?_eq_some_iff.1 h1).1
        unfold Arrays.faces at this; rw [splitBy_length, hl] at this; exact this
      have := (w.face f hf).1
      rw [h1] at this; injection this with this; subst this
      exact ⟨hf, h2⟩
    · rintro ⟨hf, h⟩; exact ⟨_, (w.face f hf).1, h⟩
  have hfaces : a.faces = (List.range a.numFaces).map (faceAt a) := by
    apply List.ext_getElem?
    intro i
    by_cases hi : i < a.numFaces
    · rw [(w.face i hi).1]; simp [hi]
    · have : a.faces.length = a.numFaces := by unfold Arrays.faces; rw [splitBy_length, hl]
      rw [List.getElem?_eq_none (by omega), List.getElem?_eq_none (by simp; omega)]
  let res := bs.map (fun b => createBlock a (env.ps b) (blockIndices b))
  have hunf : loadArrays d a pts env = match collect env.seen 0 (addVertices (Mesh.empty d) pts) true res.dropLast with
    | none => .ub
    | some r =>
      if r.2 = false ∨ res.any (fun b => !b.2) then .rejected
      else
        match res.getLast? with
        | none => .ub
        | some b =>
          match addBlock r.1 b.1 with
          | none => .ub
          | some r => if r.2 then .mesh r.1 else .rejected := by
    simp only [loadArrays, hbs, res]
    rfl
  replace hflat : bs.flatMap blockIndices = List.range a.numFaces := hflat
  obtain ⟨ini, lst, rfl⟩ : ∃ ini lst, bs = ini ++ [lst] := ⟨bs.dropLast, bs.getLast hne, (List.dropLast_append_getLast hne).symm⟩
  constructor
  · intro hgood
    have hc : ∀ b ∈ ini ++ [lst], createBlock a (env.ps b) (blockIndices b) = (((blockIndices b).map (faceAt a)).map (fun f => f.map some), true) := by
      intro b hb
      have S := createBlock_spec w (env.ps b) (blockIndices b) (hblock b hb)
      have h2 := S.1.2 (fun f hf => hgood f (hblock b hb f hf).1)
      have h3 := S.2 h2
      rw [List.map_map]
      exact Prod.ext h3 h2
    have hres : res = ((ini ++ [lst]).map (fun b => (blockIndices b).map (faceAt a))).map (fun b => (b.map (fun f => f.map some), true)) := by
      rw [List.map_map]
      exact List.map_congr_left hc
    have hseen : ∀ i, i + 1 < (ini ++ [lst]).length → env.seen i = false := by
      intro i hi
      by_contra h
      obtain ⟨f, hf⟩ := (L.seen _ hbs i hi).2 (by simpa using h)
      have := (hbad f).1 hf
      exact this.2 (hgood f this.1)
    have hlen3 : ∀ b ∈ ini ++ [lst], ∀ f ∈ (blockIndices b).map (faceAt a), 3 ≤ f.length := by
      intro b hb f hf
      obtain ⟨g, hg, rfl⟩ := List.mem_map.1 hf
      exact (hgood g (hblock b hb g hg).1).1
    rw [hunf]
    have hdl : res.dropLast = (ini.map (fun b => (blockIndices b).map (faceAt a))).map (fun b => (b.map (fun f => f.map some), true)) := by
      rw [hres]; simp
    rw [hdl, collect_good]
    rotate_left
    · intro k hk; apply hseen; simp at hk ⊢; omega
    · intro b hb
      obtain ⟨c, hc', rfl⟩ := List.mem_map.1 hb
      exact hlen3 c (by simp [hc'])
    have hany : res.any (fun b => !b.2) = false := by
      rw [hres, List.any_eq_false]
      intro x hx
      obtain ⟨y, _, rfl⟩ := List.mem_map.1 hx
      simp
    have hlast : res.getLast? = some (((blockIndices lst).map (faceAt a)).map (fun f => f.map some), true) := by
      rw [hres]; simp
    simp only [hany, Bool.false_eq_true, or_false]
    rw [hlast]
    simp only [addBlock]
    rw [complete_some _ (hlen3 lst (by simp)), descriptors_some]
    simp only [if_true]
    have hsplit : a.faces = (ini.map (fun b => (blockIndices b).map (faceAt a))).flatten ++ (blockIndices lst).map (faceAt a) := by
      rw [hfaces, ← hflat, List.map_flatMap, List.flatMap_append, List.flatMap_def]
      simp
    rw [hsplit, addFaces_append]
    generalize addFaces (addVertices (Mesh.empty d) pts) (ini.map (fun b => (blockIndices b).map (faceAt a))).flatten = r
    by_cases hr : r.2 = true
    · simp [hr]
    · have hr' : r.2 = false := by simpa using hr
      simp [hr']
  · rintro ⟨f, hf, hb⟩
    -- the block of the bad face
    have hfm : f ∈ (ini ++ [lst]).flatMap blockIndices := by rw [hflat]; exact List.mem_range.2 hf
    obtain ⟨b, hbm, hfb⟩ := List.mem_flatMap.1 hfm
    have hany : res.any (fun b => !b.2) = true := by
      rw [List.any_eq_true]
      refine ⟨_, List.mem_map.2 ⟨b, hbm, rfl⟩, ?_⟩
      have S := createBlock_spec w (env.ps b) (blockIndices b) (hblock b hbm)
      cases h : (createBlock a (env.ps b) (blockIndices b)).2 with
      | false => rfl
      | true => exact absurd (S.1.1 h f hfb) hb
    rw [hunf]
    have hsafe := collect_safe env.seen res.dropLast 0 (addVertices (Mesh.empty d) pts) true (by
      intro k x hx hs
      rw [Nat.zero_add] at hs
      have hk : k < ini.length := by
        have := (List.getElem?_eq_some_iff.1 hx).1
        simp [res] at this; omega
      have hb' : ini[k]? = some ini[k] := List.getElem?_eq_getElem hk
      have hx' : x = createBlock a (env.ps ini[k]) (blockIndices ini[k]) := by
        have : res.dropLast = ini.map (fun b => createBlock a (env.ps b) (blockIndices b)) := by simp [res]
        rw [this, List.getElem?_map, hb'] at hx
        simp at hx; exact hx.symm
      have hm : ini[k] ∈ ini ++ [lst] := List.mem_append_left _ (List.getElem_mem hk)
      have hg : ∀ f ∈ blockIndices ini[k], GoodFace a.numVertices (faceAt a f) := by
        intro g hg
        by_contra hng
        have := (L.seen _ hbs k (by simp; omega)).1 ⟨k, ini[k], Nat.le_refl _, by rw [List.getElem?_append_left hk, hb'], g, by
          unfold blockIndices at hg; rw [List.mem_range'_1] at hg; omega, by
          unfold blockIndices at hg; rw [List.mem_range'_1] at hg; omega, (hbad g).2 ⟨(hblock _ hm g hg).1, hng⟩⟩
        rw [hs] at this; cases this
      have S := createBlock_spec w (env.ps ini[k]) (blockIndices ini[k]) (hblock _ hm)
      have h2 := S.2 (S.1.2 hg)
      rw [hx', h2]
      have := complete_some ((blockIndices ini[k]).map (faceAt a)) (by
        intro l hl'
        obtain ⟨g, hg', rfl⟩ := List.mem_map.1 hl'
        exact (hg g hg').1)
      rw [List.map_map] at this
      exact this)
    obtain ⟨r, hr⟩ := hsafe
    rw [hr]
    simp [hany]

end Mcut.Preproc
