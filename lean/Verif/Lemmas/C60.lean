import Verif.Spec.C60
import Verif.Lemmas.C59
import Verif.Lemmas.C32
import Verif.Props.C17

/-! Lemmas for C60: the polygon soup. -/
namespace Mcut.Extract
open Mcut.Hmesh Mcut.Preproc Mcut.Sched
variable {P : Type} {d : P} {sm cs : Mesh P}

theorem Intact.numV {m : Mesh P} (I : Intact d m) : m.numVertices = m.nV := by simp [Mesh.numVertices, I.noRemoved.1]
theorem Intact.numF {m : Mesh P} (I : Intact d m) : m.numFaces = m.nF := by simp [Mesh.numFaces, I.noRemoved.2]

theorem enum_nil (n : Nat) : enumerateFrom [] n 0 = List.range n := by
  rw [enum_live]; unfold liveList; simp

theorem parOrder_ok (n : Nat) (threads : Option Nat) (ht : ∀ t, threads = some t → 0 < t ∧ 0 < n ∧ n + 1024 ≤ 2 ^ 32) : parOrder n threads = some (List.range n) := by
  cases threads with
  | none => rfl
  | some t =>
    obtain ⟨h1, h2, h3⟩ := ht t rfl
    obtain ⟨bs, hb, -, -, -, h⟩ := C17_blocks_partition_partial n t 1024 h2 h1 (by omega) h3
    unfold parOrder
    simp only [hb]
    congr 1

/-- The soup while the vertices and faces of the cut mesh are being added: the first `k` vertices and the polygons `fs` are there. -/
structure Sp (d : P) (sm cs : Mesh P) (k : Nat) (fs : List (List Nat)) (m : Mesh P) : Prop where
  reach : Reachable d m
  vRem : m.vRem = []
  fRem : m.fRem = []
  nV : m.nV = sm.nV + k
  nF : m.nF = sm.nF + fs.length
  pos1 : ∀ v, v < sm.nV → m.pos v = sm.pos v
  pos2 : ∀ i, i < k → m.pos (sm.nV + i) = cs.pos i
  old : ∀ f, f < sm.nF → m.fh f = sm.fh f ∧ (m.fh f).map m.target = (sm.fh f).map sm.target
  low : ∀ f, f < sm.nF → ∀ v ∈ m.verticesAroundFace f, v < sm.nV
  tgts : ∀ i f, fs[i]? = some f → (m.fh (sm.nF + i)).map (fun h => (m.hd h).t) = f.rotate 1
  srcs : ∀ i f, fs[i]? = some f → (m.fh (sm.nF + i)).map (fun h => (m.hd (opposite h)).t) = f

theorem Sp.base (I : Intact d sm) : Sp d sm cs 0 [] sm where
  reach := I.reach
  vRem := I.noRemoved.1
  fRem := I.noRemoved.2
  nV := rfl
  nF := rfl
  pos1 := fun _ _ => rfl
  pos2 := fun i hi => by omega
  old := fun _ _ => ⟨rfl, rfl⟩
  low := fun f hf v hv => by
    have W := reachable_wf I.reach
    have hl : LiveF sm f := ⟨hf, by rw [I.noRemoved.2]; simp⟩
    obtain ⟨h, hh, rfl⟩ := List.mem_map.1 hv
    have hx := ((W.faceOK hl).mem h hh).1
    have := (C29_consistent I.reach).opp h hx
    exact this.2.2.2.2.2.2.1.1
  tgts := by simp
  srcs := by simp

variable {k : Nat} {fs : List (List Nat)} {m : Mesh P}

theorem Sp.addVertex (B : Sp d sm cs k [] m) : (m.addVertex (cs.pos k)).2 = sm.nV + k ∧ Sp d sm cs (k + 1) [] (m.addVertex (cs.pos k)).1 := by
  have hr : Reachable d (m.addVertex (cs.pos k)).1 := .step m (.addVertex _) B.reach trivial
  have e : m.addVertex (cs.pos k) = ({ m with nV := m.nV + 1, vh := upd m.vh m.nV [], pos := upd m.pos m.nV (cs.pos k) }, m.nV) := by
    simp [Mesh.addVertex, B.vRem, Mesh.numVertices]
  rw [e] at hr ⊢
  have hb := B.nV
  refine ⟨hb, hr, B.vRem, B.fRem, by simp [hb]; omega, B.nF, ?_, ?_, B.old, B.low, by simp, by simp⟩
  · intro v hv
    simp only
    rw [upd_other _ _ _ _ (by omega)]; exact B.pos1 v hv
  · intro i hi
    simp only
    by_cases h : i = k
    · subst h; rw [hb, upd_same]
    · rw [upd_other _ _ _ _ (by omega)]; exact B.pos2 i (by omega)

theorem Sp.liveF (B : Sp d sm cs k fs m) (i : Nat) : LiveF m i ↔ i < sm.nF + fs.length := by
  unfold LiveF Live; rw [B.fRem, B.nF]; simp

theorem Sp.liveV (B : Sp d sm cs k fs m) (v : Nat) : LiveV m v ↔ v < sm.nV + k := by
  unfold LiveV Live; rw [B.vRem, B.nV]; simp

theorem Sp.face_pairs (B : Sp d sm cs k fs m) (i : Nat) (f : List Nat) (hf : fs[i]? = some f) :
    (m.fh (sm.nF + i)).map (fun h => ((m.hd (opposite h)).t, (m.hd h).t)) = cycPairs f :=
  pairs_of_maps _ _ _ _ (B.srcs i f hf) (B.tgts i f hf)

theorem Sp.free (B : Sp d sm cs k fs m) (p : Nat × Nat) (hne : p.1 ≠ p.2) (hge : sm.nV ≤ p.2) (hp : p ∉ fs.flatMap cycPairs) : EdgeFree m p := by
  have W := reachable_wf B.reach
  intro h hh
  have hs := halfedge_some W _ _ hne h hh
  cases hf : (m.hd h).f with
  | none => rfl
  | some g =>
    obtain ⟨lg, hg⟩ := W.ofFace hs.1 hf
    have hi := (B.liveF g).1 lg
    exfalso
    by_cases hlt : g < sm.nF
    · have := B.low g hlt (m.target h) (List.mem_map.2 ⟨h, hg, rfl⟩)
      have e : m.target h = p.2 := hs.2.2
      omega
    · apply hp
      obtain ⟨j, rfl⟩ : ∃ j, g = sm.nF + j := ⟨g - sm.nF, by omega⟩
      have hj : j < fs.length := by omega
      refine List.mem_flatMap.2 ⟨fs[j], List.getElem_mem hj, ?_⟩
      rw [← B.face_pairs j fs[j] (by simp [hj])]
      refine List.mem_map.2 ⟨h, hg, ?_⟩
      rw [hs.2.1, hs.2.2]

theorem Sp.accept (B : Sp d sm cs k fs m) (f : List Nat) (G : GoodFace (sm.nV + k) f) (hge : ∀ v ∈ f, sm.nV ≤ v)
    (hn : ∀ p ∈ cycPairs f, p ∉ fs.flatMap cycPairs) :
    (m.addFace f).2 = some (sm.nF + fs.length) ∧ Sp d sm cs k (fs ++ [f]) (m.addFace f).1 := by
  have W := reachable_wf B.reach
  have GP : GoodPolygon m f := nodup_good G.1 G.2.1 (fun v hv => (B.liveV v).2 (G.2.2 v hv))
  have hok : (m.addFace f).2 ≠ none := by
    rw [← C31_insertable_exact B.reach GP G.2.1, isInsertable_iff]
    intro p hp
    refine B.free p (GP.pairs p hp).2.2 ?_ (hn p hp)
    have : p.2 ∈ f.rotate 1 := by unfold cycPairs at hp; exact (List.of_mem_zip hp).2
    exact hge _ (List.mem_rotate.1 this)
  obtain ⟨idx, hidx⟩ := Option.ne_none_iff_exists'.1 hok
  have A := addFace_spec W GP idx hidx
  have hr : Reachable d (m.addFace f).1 := .step m (.addFace f) B.reach ⟨GP, hok⟩
  have hidx' : idx = sm.nF + fs.length := by rw [A.idx_eq]; simp [newFace, B.fRem, B.nF]
  subst hidx'
  have hkeep : ∀ g, g < sm.nF + fs.length → (m.addFace f).1.fh g = m.fh g ∧ (∀ x ∈ m.fh g, ((m.addFace f).1.hd x).t = (m.hd x).t ∧
      ((m.addFace f).1.hd (opposite x)).t = (m.hd (opposite x)).t) := by
    intro g hg
    have hl := (B.liveF g).2 hg
    refine ⟨A.old_list g hl, fun x hx => ?_⟩
    have hx' := ((W.faceOK hl).mem x hx).1
    exact ⟨(A.old_h x hx').2.1, (A.old_h _ (W.opp_live hx')).2.1⟩
  have hmap : ∀ g, g < sm.nF → ((m.addFace f).1.fh g).map (m.addFace f).1.target = (m.fh g).map m.target := by
    intro g hg
    obtain ⟨h1, h2⟩ := hkeep g (by omega)
    rw [h1]
    exact List.map_congr_left (fun x hx => (h2 x hx).1)
  refine ⟨hidx, hr, by rw [A.vRem, B.vRem], by rw [A.fRem, B.fRem]; rfl, by rw [A.nV, B.nV], by rw [A.nF, if_pos B.fRem, B.nF]; simp; omega,
    by rw [A.pos]; exact B.pos1, by rw [A.pos]; exact B.pos2, ?_, ?_, ?_, ?_⟩
  · intro g hg
    exact ⟨by rw [(hkeep g (by omega)).1]; exact (B.old g hg).1, by rw [hmap g hg]; exact (B.old g hg).2⟩
  · intro g hg v hv
    refine B.low g hg v ?_
    unfold Mesh.verticesAroundFace at hv ⊢
    rw [hmap g hg] at hv; exact hv
  · intro i g hg
    by_cases hi : i = fs.length
    · subst hi
      rw [List.getElem?_append_right (by omega)] at hg
      simp at hg; subst hg; exact A.list
    · have hlt : i < fs.length := by have := (List.getElem?_eq_some_iff.1 hg).1; simp at this; omega
      rw [List.getElem?_append_left hlt] at hg
      obtain ⟨h1, h2⟩ := hkeep (sm.nF + i) (by omega)
      rw [h1, ← B.tgts i g hg]
      exact List.map_congr_left (fun x hx => (h2 x hx).1)
  · intro i g hg
    by_cases hi : i = fs.length
    · subst hi
      rw [List.getElem?_append_right (by omega)] at hg
      simp at hg; subst hg; exact A.srcs
    · have hlt : i < fs.length := by have := (List.getElem?_eq_some_iff.1 hg).1; simp at this; omega
      rw [List.getElem?_append_left hlt] at hg
      obtain ⟨h1, h2⟩ := hkeep (sm.nF + i) (by omega)
      rw [h1, ← B.srcs i g hg]
      exact List.map_congr_left (fun x hx => (h2 x hx).2)

theorem mergeVertices_spec (I : Intact d sm) (J : Intact d cs) (arr : List Nat) (hl : arr.length = sm.nV + cs.nV) :
    Sp d sm cs cs.nV [] (mergeVertices cs (sm, arr)).1 ∧ (mergeVertices cs (sm, arr)).2.length = sm.nV + cs.nV ∧
    ∀ i, i < cs.nV → (mergeVertices cs (sm, arr)).2[sm.nV + i]? = some i := by
  unfold mergeVertices
  rw [J.noRemoved.1, enum_nil]
  have key : ∀ n, n ≤ cs.nV → let s := (List.range n).foldl (fun s i => ((s.1.addVertex (cs.pos i)).1, s.2.set (s.1.addVertex (cs.pos i)).2 i)) (sm, arr)
      Sp d sm cs n [] s.1 ∧ s.2.length = sm.nV + cs.nV ∧ ∀ i, i < n → s.2[sm.nV + i]? = some i := by
    intro n
    induction n with
    | zero => intro _; exact ⟨Sp.base I, hl, fun i hi => by omega⟩
    | succ n ih =>
      intro hn
      obtain ⟨h1, h2, h3⟩ := ih (by omega)
      simp only [List.range_succ, List.foldl_append, List.foldl_cons, List.foldl_nil]
      obtain ⟨e, B⟩ := h1.addVertex
      refine ⟨B, by simp [h2], fun i hi => ?_⟩
      rw [e, List.getElem?_set]
      by_cases h : i = n
      · subst h; simp [h2]; omega
      · rw [if_neg (by omega)]; exact h3 i (by omega)
  exact key cs.nV (Nat.le_refl _)

theorem cycPairs_map_add (n : Nat) (f : List Nat) : cycPairs (f.map (fun v => v + n)) = (cycPairs f).map (fun p => (p.1 + n, p.2 + n)) := by
  unfold cycPairs
  rw [← List.map_rotate, List.zip_map]
  rfl

theorem mergeFaces_spec {ps0 : Mesh P} (J : Intact d cs) (hv : ValidMesh cs.nV (polygons cs)) (S0 : Sp d sm cs cs.nV [] ps0) (arr : List Nat)
    (hl : arr.length = sm.nF + cs.nF) :
    ∃ ps tab, mergeFaces cs sm.nV (List.range cs.nF) (ps0, arr) = some (ps, tab) ∧
      Sp d sm cs cs.nV ((polygons cs).map (fun f => f.map (fun v => v + sm.nV))) ps ∧ tab.length = sm.nF + cs.nF ∧
      ∀ i, i < cs.nF → tab[sm.nF + i]? = some i := by
  have hp : polygons cs = (List.range cs.nF).map cs.verticesAroundFace := by unfold polygons; rw [J.numF]
  rw [hp] at hv ⊢
  have go : ∀ (rest : List Nat) (n : Nat) (m : Mesh P) (tab : List Nat), n + rest.length = cs.nF → rest = List.range' n rest.length →
      Sp d sm cs cs.nV (((List.range n).map cs.verticesAroundFace).map (fun f => f.map (fun v => v + sm.nV))) m → tab.length = sm.nF + cs.nF →
      (∀ i, i < n → tab[sm.nF + i]? = some i) →
      ∃ ps tab', mergeFaces cs sm.nV rest (m, tab) = some (ps, tab') ∧
        Sp d sm cs cs.nV (((List.range cs.nF).map cs.verticesAroundFace).map (fun f => f.map (fun v => v + sm.nV))) ps ∧ tab'.length = sm.nF + cs.nF ∧
        ∀ i, i < cs.nF → tab'[sm.nF + i]? = some i := by
    intro rest
    induction rest with
    | nil =>
      intro n m tab hn _ B ht hi
      simp at hn; subst hn
      exact ⟨m, tab, rfl, B, ht, hi⟩
    | cons x rest ih =>
      intro n m tab hn hx B ht hi
      rw [List.length_cons, List.range'_succ] at hx
      injection hx with hx hx'
      subst hx
      rw [List.length_cons] at hn
      have hmem : cs.verticesAroundFace x ∈ (List.range cs.nF).map cs.verticesAroundFace :=
        List.mem_map.2 ⟨x, List.mem_range.2 (by omega), rfl⟩
      have G := hv.1 _ hmem
      have hne : ∀ p ∈ cycPairs ((cs.verticesAroundFace x).map (fun v => v + sm.nV)),
          p ∉ (((List.range x).map cs.verticesAroundFace).map (fun f => f.map (fun v => v + sm.nV))).flatMap cycPairs := by
        intro p h1 h2
        rw [cycPairs_map_add] at h1
        obtain ⟨q, hq, rfl⟩ := List.mem_map.1 h1
        obtain ⟨g, hg, hg2⟩ := List.mem_flatMap.1 h2
        rw [List.map_map] at hg
        obtain ⟨y, hy, rfl⟩ := List.mem_map.1 hg
        simp only [Function.comp] at hg2
        rw [cycPairs_map_add] at hg2
        obtain ⟨q', hq', he⟩ := List.mem_map.1 hg2
        have hqq : q' = q := by
          have e1 := congrArg Prod.fst he
          have e2 := congrArg Prod.snd he
          simp only at e1 e2
          exact Prod.ext (by omega) (by omega)
        subst hqq
        have hnd := hv.2
        rw [show dirEdges = cycPairs from by funext f; exact dirEdges_eq f] at hnd
        rw [List.nodup_flatMap] at hnd
        have hpw := List.pairwise_iff_getElem.1 hnd.2
        have hy' := List.mem_range.1 hy
        have := hpw y x (by simp; omega) (by simp; omega) hy'
        simp only [List.getElem_map, List.getElem_range] at this
        exact this hq' hq
      have A := B.accept ((cs.verticesAroundFace x).map (fun v => v + sm.nV))
        ⟨by simpa using G.1, G.2.1.map (fun a b h => by omega), fun v hv' => by obtain ⟨u, hu, rfl⟩ := List.mem_map.1 hv'; have := G.2.2 u hu; omega⟩
        (fun v hv' => by obtain ⟨u, hu, rfl⟩ := List.mem_map.1 hv'; omega) hne
      have hlen : (((List.range x).map cs.verticesAroundFace).map (fun f => f.map (fun v => v + sm.nV))).length = x := by simp
      rw [hlen] at A
      unfold mergeFaces
      simp only [A.1, Option.bind_some]
      refine ih (x + 1) _ _ (by omega) hx' ?_ (by simp [ht]) ?_
      · simpa [List.range_succ] using A.2
      · intro i hix
        rw [List.getElem?_set]
        by_cases h : i = x
        · subst h; simp [ht]; omega
        · rw [if_neg (by omega)]; exact hi i (by omega)
  exact go (List.range cs.nF) 0 ps0 arr (by simp) (by simp [List.range_eq_range']) (by simpa using S0) hl (by simp)

end Mcut.Extract
