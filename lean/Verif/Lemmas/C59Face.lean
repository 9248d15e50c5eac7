import Verif.Lemmas.C59Rec

/-! Helper lemmas for C59: inserting the faces into the components. -/
namespace Mcut.Extract
open Mcut.Hmesh Mcut.Preproc
variable {P : Type} {d : P} {m : Mesh P} {a : Args}

theorem mapM_some {α β : Type} (t : α → Option β) (b : β) : ∀ l : List α, (∀ x ∈ l, t x ≠ none) → l.mapM t = some (l.map (fun x => (t x).getD b)) := by
  intro l
  induction l with
  | nil => intro _; rfl
  | cons x l ih =>
    intro h
    obtain ⟨y, hy⟩ := Option.ne_none_iff_exists'.1 (h x (by simp))
    rw [List.mapM_cons, hy, ih (fun z hz => h z (by simp [hz]))]
    simp [hy]

theorem cycPairs_map {α β : Type} (g : α → β) (l : List α) : cycPairs (l.map g) = (cycPairs l).map (Prod.map g g) := by
  unfold cycPairs
  rw [← List.map_rotate, List.zip_map]

/-- The faces of the auxiliary mesh: valid, and no directed side occurs twice. -/
structure FacesOK (m : Mesh P) (n : Nat) : Prop where
  good : ∀ f, f < n → GoodFace m.nV (m.verticesAroundFace f)
  disj : ∀ f g, f < n → g < n → f ≠ g → ∀ p ∈ cycPairs (m.verticesAroundFace f), p ∉ cycPairs (m.verticesAroundFace g)

/-- Renaming of the vertices of a face. -/
def renamed (m : Mesh P) (r : Rec P) (f : Nat) : List Nat := (m.verticesAroundFace f).map (fun v => (r.toCC v).getD 0)

/-- After the second loop over the faces in `done`. -/
structure FI (d : P) (m : Mesh P) (a : Args) (s : St P) (R : Nat → Option (Rec P)) (done : List Nat) : Prop where
  none : ∀ k, s.recs k = none → R k = none
  some : ∀ k r0, s.recs k = some r0 → ∃ r, R k = some r ∧ r.toCC = r0.toCC ∧ r.fromCC = r0.fromCC ∧ r.seams = r0.seams ∧
    (kept a.keep (s.loc k) = true → r.faces = done.filter (fun f => faceComponent m f = Option.some k) ∧
      Built d (r0.fromCC.map m.pos) (r.faces.map (renamed m r0)) r.mesh)

theorem RecV.renamed_good {r : Rec P} {S : Nat → Prop} (V : RecV d m a.flags r S) (f : Nat) (G : GoodFace m.nV (m.verticesAroundFace f))
    (hS : ∀ v ∈ m.verticesAroundFace f, S v) : GoodFace (r.fromCC.map m.pos).length (renamed m r f) ∧
    (∀ v ∈ m.verticesAroundFace f, r.toCC v ≠ none) := by
  have hsome : ∀ v, S v → ∃ i, r.toCC v = some i ∧ r.fromCC[i]? = some v := by
    intro v hv
    obtain ⟨i, hi, he⟩ := List.getElem_of_mem ((V.mem v).2 hv)
    have : r.fromCC[i]? = some v := by rw [List.getElem?_eq_getElem hi, he]
    exact ⟨i, (V.toCC v i).2 this, this⟩
  refine ⟨⟨by simpa [renamed] using G.1, ?_, ?_⟩, ?_⟩
  · unfold renamed
    refine List.Nodup.map_on ?_ G.2.1
    intro x hx y hy he
    obtain ⟨i, hi, hi'⟩ := hsome x (hS x hx)
    obtain ⟨j, hj, hj'⟩ := hsome y (hS y hy)
    simp only [hi, hj, Option.getD_some] at he
    subst he
    rw [hi'] at hj'; injection hj'
  · intro v hv
    obtain ⟨x, hx, rfl⟩ := List.mem_map.1 hv
    obtain ⟨i, hi, hi'⟩ := hsome x (hS x hx)
    rw [hi, List.length_map]
    exact (List.getElem?_eq_some_iff.1 hi').1
  · intro v hv
    obtain ⟨i, hi, -⟩ := hsome v (hS v hv)
    rw [hi]; simp

theorem RecV.renamed_sides {r : Rec P} {S : Nat → Prop} (V : RecV d m a.flags r S) (f g : Nat)
    (hf : ∀ v ∈ m.verticesAroundFace f, S v) (hg : ∀ v ∈ m.verticesAroundFace g, S v)
    (hd : ∀ p ∈ cycPairs (m.verticesAroundFace f), p ∉ cycPairs (m.verticesAroundFace g)) :
    ∀ p ∈ cycPairs (renamed m r f), p ∉ cycPairs (renamed m r g) := by
  have hinj : ∀ x y, S x → S y → (r.toCC x).getD 0 = (r.toCC y).getD 0 → x = y := by
    intro x y hx hy he
    obtain ⟨i, hi, rfl⟩ := List.getElem_of_mem ((V.mem x).2 hx)
    obtain ⟨j, hj, rfl⟩ := List.getElem_of_mem ((V.mem y).2 hy)
    have h1 := (V.toCC r.fromCC[i] i).2 (by simp [hi])
    have h2 := (V.toCC r.fromCC[j] j).2 (by simp [hj])
    rw [h1, h2] at he
    simp at he; subst he; rfl
  intro p hp hq
  unfold renamed at hp hq
  rw [cycPairs_map] at hp hq
  obtain ⟨u, hu, rfl⟩ := List.mem_map.1 hp
  obtain ⟨w, hw, he⟩ := List.mem_map.1 hq
  obtain ⟨_, _, hu1, hu2⟩ := cycPairs_mem _ u hu
  obtain ⟨_, _, hw1, hw2⟩ := cycPairs_mem _ w hw
  replace hu1 := List.mem_of_getElem? hu1
  replace hu2 := List.mem_of_getElem? hu2
  replace hw1 := List.mem_of_getElem? hw1
  replace hw2 := List.mem_of_getElem? hw2
  simp only [Prod.map, Prod.mk.injEq] at he
  have e1 := hinj w.1 u.1 (hg _ hw1) (hf _ hu1) he.1
  have e2 := hinj w.2 u.2 (hg _ hw2) (hf _ hu2) he.2
  have : w = u := Prod.ext e1 e2
  subst this
  exact hd w hu hw

theorem insertFaces_spec {s : St P} {n : Nat} (F : FacesOK m n) (V : VI d m a s (List.range n)) (hc : ∀ f, f < n → faceComponent m f ≠ none) :
    ∀ (fs done : List Nat) (R : Nat → Option (Rec P)), (done ++ fs).Nodup → (∀ f ∈ done ++ fs, f < n) → FI d m a s R done →
    ∃ R', insertFaces m a.keep s.loc fs R = some R' ∧ FI d m a s R' (done ++ fs) := by
  intro fs
  induction fs with
  | nil => intro done R _ _ I; exact ⟨R, rfl, by simpa using I⟩
  | cons f fs ih =>
    intro done R hnd hlt I
    have hf := hlt f (by simp)
    obtain ⟨k, hk⟩ := Option.ne_none_iff_exists'.1 (hc f hf)
    have hnd' : ((done ++ [f]) ++ fs).Nodup := by simpa using hnd
    have hlt' : ∀ g ∈ (done ++ [f]) ++ fs, g < n := by simpa using hlt
    have hother : ∀ j, j ≠ k → (done ++ [f]).filter (fun f => decide (faceComponent m f = some j)) =
        done.filter (fun f => decide (faceComponent m f = some j)) := by
      intro j hj
      have : k ≠ j := fun h => hj h.symm
      rw [List.filter_append]; simp [hk, this]
    have hsame : (done ++ [f]).filter (fun f => decide (faceComponent m f = some k)) =
        done.filter (fun f => decide (faceComponent m f = some k)) ++ [f] := by
      rw [List.filter_append]; simp [hk]
    have hfin : ∀ R', FI d m a s R' (done ++ [f]) → ∃ R'', insertFaces m a.keep s.loc fs R' = some R'' ∧ FI d m a s R'' (done ++ f :: fs) := by
      intro R' I'
      obtain ⟨R'', h1, h2⟩ := ih (done ++ [f]) R' hnd' hlt' I'
      exact ⟨R'', h1, by simpa using h2⟩
    unfold insertFaces
    rw [hk]
    simp only [Option.bind_some]
    by_cases hkeep : kept a.keep (s.loc k) = true
    · rw [if_pos hkeep]
      have hsk : s.recs k ≠ none := by
        intro h
        exact (V.none k).1 h f (List.mem_range.2 hf) hk
      obtain ⟨r0, hr0⟩ := Option.ne_none_iff_exists'.1 hsk
      obtain ⟨r, hr, e1, e2, e3, hface⟩ := I.some k r0 hr0
      obtain ⟨hfs, hB⟩ := hface hkeep
      have RV := V.some k r0 hr0
      have hS : ∀ g, g < n → faceComponent m g = some k → ∀ v ∈ m.verticesAroundFace g,
          ∃ f ∈ List.range n, faceComponent m f = some k ∧ v ∈ m.verticesAroundFace f :=
        fun g hg hgk v hv => ⟨g, List.mem_range.2 hg, hgk, hv⟩
      obtain ⟨G, hsome⟩ := RV.renamed_good f (F.good f hf) (hS f hf hk)
      have hmap : (m.verticesAroundFace f).mapM r.toCC = some (renamed m r0 f) := by
        rw [e1]; exact mapM_some r0.toCC 0 _ hsome
      have hnew : ∀ p ∈ cycPairs (renamed m r0 f), p ∉ (r.faces.map (renamed m r0)).flatMap cycPairs := by
        intro p hp hq
        obtain ⟨l, hl, hpl⟩ := List.mem_flatMap.1 hq
        obtain ⟨g, hg, rfl⟩ := List.mem_map.1 hl
        rw [hfs, List.mem_filter] at hg
        have hgk : faceComponent m g = some k := by simpa using hg.2
        have hgn := hlt g (by simp [hg.1])
        have hne : f ≠ g := by
          rintro rfl
          rw [List.nodup_append] at hnd
          exact hnd.2.2 f hg.1 f (by simp) rfl
        exact RV.renamed_sides f g (hS f hf hk) (hS g hgn hgk) (F.disj f g hf hgn hne) p hp hpl
      have A := hB.accept (renamed m r0 f) G
      have B' := A.2 (A.1.2 hnew)
      rw [hr]
      simp only [Option.bind_some, insertFace, hmap, Option.map_some]
      refine hfin _ ⟨?_, ?_⟩
      · intro j hj
        have hjk : j ≠ k := by rintro rfl; rw [hr0] at hj; cases hj
        rw [upd_other _ _ _ _ hjk]; exact I.none j hj
      · intro j q0 hq0
        by_cases hj : j = k
        · subst hj
          rw [hr0] at hq0; injection hq0 with hq0; subst hq0
          rw [upd_same]
          refine ⟨_, rfl, e1, e2, e3, fun _ => ⟨?_, ?_⟩⟩
          · simp only
            rw [hsame, hfs]
          · simpa using B'
        · rw [upd_other _ _ _ _ hj, hother j hj]
          exact I.some j q0 hq0
    · rw [if_neg hkeep]
      refine hfin R ⟨I.none, ?_⟩
      intro j q0 hq0
      obtain ⟨r, hr, e1, e2, e3, hface⟩ := I.some j q0 hq0
      refine ⟨r, hr, e1, e2, e3, fun hkj => ?_⟩
      by_cases hj : j = k
      · subst hj; exact absurd hkj hkeep
      · rw [hother j hj]; exact hface hkj

theorem FI.init {s : St P} {n : Nat} (V : VI d m a s (List.range n)) : FI d m a s s.recs [] := by
  refine ⟨fun _ h => h, fun k r0 h => ⟨r0, h, rfl, rfl, rfl, fun _ => ?_⟩⟩
  have R := V.some k r0 h
  refine ⟨by rw [R.faces]; rfl, ?_⟩
  rw [R.faces]; exact R.built

end Mcut.Extract
