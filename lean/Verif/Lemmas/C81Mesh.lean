import Verif.Spec.C81
import Verif.Lemmas.C59Face
import Verif.Lemmas.C59Save
import Verif.Props.C17

/-! Lemmas for C81: making the mesh of a list of polygons. -/
namespace Mcut.Patches
open Mcut.Hmesh Mcut.Extract Mcut.Preproc Mcut.Sched
variable {P : Type} {d : P} {m0 : Mesh P} {base : Nat} {polys : List (List Nat)}

/-- The faces are added in the order of the patch, with and without threads. -/
theorem faceSequence_spec {l : List Nat} (hne : l ≠ []) (threads : Option Nat) (ht : ∀ t, threads = some t → 0 < t ∧ l.length + 1024 ≤ 2 ^ 32) : faceSequence l threads = some l := by
  cases threads with
  | none => rfl
  | some t =>
    obtain ⟨h1, h2⟩ := ht t rfl
    obtain ⟨bs, hb, -, -, -, hflat⟩ := C17_blocks_partition_partial l.length t 1024 (List.length_pos_iff.2 hne) h1 (by omega) h2
    unfold faceSequence
    simp only
    rw [hb]
    simp only
    have e : bs.flatMap blockIndices = List.range l.length := hflat
    rw [e, mapM_some (fun i => l[i]?) 0 _ (fun i hi => by rw [List.getElem?_eq_getElem (List.mem_range.1 hi)]; simp)]
    congr 1
    apply List.ext_getElem?
    intro i
    rw [List.getElem?_map]
    by_cases hi : i < l.length
    · rw [List.getElem?_range hi, Option.map_some, List.getElem?_eq_getElem hi, Option.getD_some]
    · rw [List.getElem?_eq_none (by simpa using hi), Option.map_none, List.getElem?_eq_none (by omega)]

/-- The corners, with the numbers of the new vertices. -/
def named (r : Rec P) (vs : List Nat) : List Nat := vs.map (fun v => (r.toCC v).getD 0)

theorem named_inj {r : Rec P} {S : Nat → Prop} {flags : List Bool} (V : RecV d m0 flags r S) {x y : Nat} (hx : S x) (hy : S y) (he : (r.toCC x).getD 0 = (r.toCC y).getD 0) : x = y := by
  obtain ⟨i, hi, rfl⟩ := List.getElem_of_mem ((V.mem x).2 hx)
  obtain ⟨j, hj, rfl⟩ := List.getElem_of_mem ((V.mem y).2 hy)
  have h1 := (V.toCC r.fromCC[i] i).2 (by simp [hi])
  have h2 := (V.toCC r.fromCC[j] j).2 (by simp [hj])
  rw [h1, h2] at he
  simp at he; subst he; rfl

theorem named_some {r : Rec P} {S : Nat → Prop} {flags : List Bool} (V : RecV d m0 flags r S) {v : Nat} (hv : S v) : ∃ i, r.toCC v = some i ∧ r.fromCC[i]? = some v := by
  obtain ⟨i, hi, he⟩ := List.getElem_of_mem ((V.mem v).2 hv)
  have : r.fromCC[i]? = some v := by rw [List.getElem?_eq_getElem hi, he]
  exact ⟨i, (V.toCC v i).2 this, this⟩

/-- A face, with the new numbers. -/
theorem named_good {r : Rec P} {S : Nat → Prop} {flags : List Bool} (V : RecV d m0 flags r S) {vs : List Nat} {n : Nat} (G : GoodFace n vs) (hS : ∀ v ∈ vs, S v) :
    GoodFace (r.fromCC.map m0.pos).length (named r vs) ∧ ∀ v ∈ vs, r.toCC v ≠ none := by
  refine ⟨⟨by simpa [named] using G.1, ?_, ?_⟩, ?_⟩
  · exact List.Nodup.map_on (fun x hx y hy he => named_inj V (hS x hx) (hS y hy) he) G.2.1
  · intro v hv
    obtain ⟨x, hx, rfl⟩ := List.mem_map.1 hv
    obtain ⟨i, hi, hi'⟩ := named_some V (hS x hx)
    rw [hi, List.length_map]
    exact (List.getElem?_eq_some_iff.1 hi').1
  · intro v hv
    obtain ⟨i, hi, -⟩ := named_some V (hS v hv)
    rw [hi]; simp

theorem named_sides {r : Rec P} {S : Nat → Prop} {flags : List Bool} (V : RecV d m0 flags r S) {a b : List Nat} (ha : ∀ v ∈ a, S v) (hb : ∀ v ∈ b, S v)
    (hd : ∀ p ∈ cycPairs a, p ∉ cycPairs b) : ∀ p ∈ cycPairs (named r a), p ∉ cycPairs (named r b) := by
  intro p hp hq
  unfold named at hp hq
  rw [cycPairs_map] at hp hq
  obtain ⟨u, hu, rfl⟩ := List.mem_map.1 hp
  obtain ⟨w, hw, he⟩ := List.mem_map.1 hq
  obtain ⟨_, _, hu1, hu2⟩ := cycPairs_mem _ u hu
  obtain ⟨_, _, hw1, hw2⟩ := cycPairs_mem _ w hw
  simp only [Prod.map, Prod.mk.injEq] at he
  have e1 := named_inj V (hb _ (List.mem_of_getElem? hw1)) (ha _ (List.mem_of_getElem? hu1)) he.1
  have e2 := named_inj V (hb _ (List.mem_of_getElem? hw2)) (ha _ (List.mem_of_getElem? hu2)) he.2
  have : w = u := Prod.ext e1 e2
  subst this
  exact hd w hu hw

/-- The loop that adds the faces. -/
theorem addPolygons_spec {r0 : Rec P} {S : Nat → Prop} {flags : List Bool} (V : RecV d m0 flags r0 S) {n : Nat} : ∀ (l done : List Nat) (r : Rec P), (done ++ l).Nodup →
    (∀ j ∈ done ++ l, (∃ p, polys[j]? = some p) ∧ GoodFace n (corners m0 polys j) ∧ ∀ v ∈ corners m0 polys j, S v) →
    (∀ j ∈ done ++ l, ∀ k ∈ done ++ l, j ≠ k → ∀ p ∈ cycPairs (corners m0 polys j), p ∉ cycPairs (corners m0 polys k)) →
    r.toCC = r0.toCC → r.fromCC = r0.fromCC → r.seams = r0.seams → r.faces = done → Built d (r0.fromCC.map m0.pos) (done.map (fun j => named r0 (corners m0 polys j))) r.mesh →
    ∃ r', l.foldlM (addPolygon m0 polys) r = some r' ∧ r'.toCC = r0.toCC ∧ r'.fromCC = r0.fromCC ∧ r'.seams = r0.seams ∧ r'.faces = done ++ l ∧
      Built d (r0.fromCC.map m0.pos) ((done ++ l).map (fun j => named r0 (corners m0 polys j))) r'.mesh := by
  intro l
  induction l with
  | nil => intro done r _ _ _ e1 e2 e3 e4 B; exact ⟨r, rfl, e1, e2, e3, by simpa using e4, by simpa using B⟩
  | cons j l ih =>
    intro done r hnd hg hd e1 e2 e3 e4 B
    obtain ⟨⟨p, hp⟩, G, hS⟩ := hg j (by simp)
    have hcor : corners m0 polys j = p.map m0.target := by unfold corners; rw [List.getD_eq_getElem?_getD, hp, Option.getD_some]
    obtain ⟨G', hsome⟩ := named_good V G hS
    have hnew : ∀ q ∈ cycPairs (named r0 (corners m0 polys j)), q ∉ (done.map (fun j => named r0 (corners m0 polys j))).flatMap cycPairs := by
      intro q hq hq'
      obtain ⟨x, hx, hqx⟩ := List.mem_flatMap.1 hq'
      obtain ⟨k, hk, rfl⟩ := List.mem_map.1 hx
      have hne : j ≠ k := by
        rintro rfl
        rw [List.nodup_append] at hnd
        exact hnd.2.2 j hk j (by simp) rfl
      exact named_sides V hS (hg k (by simp [hk])).2.2 (hd j (by simp) k (by simp [hk]) hne) q hq hqx
    have A := B.accept _ G'
    have B' := A.2 (A.1.2 hnew)
    have hstep : addPolygon m0 polys r j = some { r with mesh := (r.mesh.addFace (named r0 (corners m0 polys j))).1, faces := r.faces ++ [j] } := by
      unfold addPolygon
      rw [hp, Option.bind_some, ← hcor, e1, mapM_some r0.toCC 0 _ hsome]
      rfl
    rw [List.foldlM_cons, hstep]
    have eq : done ++ j :: l = (done ++ [j]) ++ l := by simp
    rw [eq] at hnd hg hd ⊢
    refine ih (done ++ [j]) _ hnd hg hd e1 e2 e3 (by simp [e4]) ?_
    simpa using B'

/-- What `buildPatch` makes. -/
theorem buildPatch_spec {l : List Nat} (hne : l ≠ []) (hnd : l.Nodup) {n : Nat} (hg : ∀ j ∈ l, (∃ p, polys[j]? = some p) ∧ GoodFace n (corners m0 polys j))
    (hd : ∀ j ∈ l, ∀ k ∈ l, j ≠ k → ∀ p ∈ cycPairs (corners m0 polys j), p ∉ cycPairs (corners m0 polys k))
    (threads : Option Nat) (ht : ∀ t, threads = some t → 0 < t ∧ l.length + 1024 ≤ 2 ^ 32) :
    ∃ r r0, buildPatch d m0 base polys threads l = some r ∧ RecV d m0 (markSeam m0 base none) r0 (fun v => ∃ j ∈ l, v ∈ corners m0 polys j) ∧ r.fromCC = r0.fromCC ∧ r.seams = r0.seams ∧
      r.faces = l ∧ Built d (r0.fromCC.map m0.pos) (l.map (fun j => named r0 (corners m0 polys j))) r.mesh := by
  have hps : l.mapM (fun j => polys[j]?) = some (l.map (fun j => (polys[j]?).getD [])) := mapM_some _ [] _ (fun j hj => by
    obtain ⟨⟨p, hp⟩, -⟩ := hg j hj; rw [hp]; simp)
  have V := mapVertices_spec (d := d) (m := m0) (flags := markSeam m0 base none) ((l.map (fun j => (polys[j]?).getD [])).flatMap (fun p => p.map m0.target)) (RecV.new)
  have V := V.congr (S' := fun v => ∃ j ∈ l, v ∈ corners m0 polys j) (fun v => by
    rw [false_or, List.flatMap_map, List.mem_flatMap]
    unfold corners
    simp only [List.getD_eq_getElem?_getD])
  obtain ⟨r', h1, h2, h3, h4, h5, h6⟩ := addPolygons_spec V (n := n) (polys := polys) l [] _ (by simpa using hnd)
    (fun j hj => by
      rw [List.nil_append] at hj
      exact ⟨(hg j hj).1, (hg j hj).2, fun v hv => ⟨j, hj, hv⟩⟩)
    (fun j hj k hk => hd j (by simpa using hj) k (by simpa using hk)) rfl rfl rfl V.faces V.built
  refine ⟨r', _, ?_, V, h3, h4, by simpa using h5, by simpa using h6⟩
  unfold buildPatch
  rw [hps, Option.bind_some, faceSequence_spec hne threads ht, Option.bind_some]
  exact h1

/-- … is a copy of the polygons, and of other polygons with the same corners (up to rotation). -/
theorem copy_spec {l l' : List Nat} {polys' : List (List Nat)} {r r0 : Rec P} {flags : List Bool}
    (V : RecV d m0 flags r0 (fun v => ∃ j ∈ l, v ∈ corners m0 polys j)) (hface : r.faces = l) (B : Built d (r0.fromCC.map m0.pos) (l.map (fun j => named r0 (corners m0 polys j))) r.mesh)
    (hnd : l'.Nodup) (hlt : ∀ j ∈ l', j < polys'.length) (hrel : List.Forall₂ (fun j k => corners m0 polys j ~r corners m0 polys' k) l l') :
    Extract.CopyOf d m0 polys' r.mesh r0.fromCC l' := by
  have hlen := hrel.length_eq
  refine ⟨B.reach, ⟨B.vRem, B.fRem⟩, by simp [Mesh.numVertices, B.vRem, B.nV], by simp [Mesh.numFaces, B.fRem, B.nF, hlen], V.nodup, hnd, ?_, hlt, ?_, ?_, B.edges.1, B.edges.2⟩
  · intro i v hv
    exact B.pos i (m0.pos v) (by rw [List.getElem?_map, hv]; rfl)
  · intro i k hk
    have hi : i < l.length := by rw [hlen]; exact (List.getElem?_eq_some_iff.1 hk).1
    have hj := List.getElem?_eq_getElem hi
    have hr := (List.forall₂_iff_get.1 hrel).2 i hi (by omega)
    have ek : l'[i]'(by omega) = k := by
      have := List.getElem?_eq_getElem (l := l') (i := i) (by omega)
      rw [hk] at this; exact (Option.some.inj this).symm
    have ht' := B.tgts i (named r0 (corners m0 polys l[i])) (by rw [List.getElem?_map, hj]; rfl)
    have : r.mesh.verticesAroundFace i = (named r0 (corners m0 polys l[i])).rotate 1 := ht'
    rw [this]
    have e : (named r0 (corners m0 polys l[i])).map (fun x => r0.fromCC[x]?) = (corners m0 polys l[i]).map some := by
      unfold named
      rw [List.map_map]
      apply List.map_congr_left
      intro v hv
      obtain ⟨x, hx, hx'⟩ := named_some V (v := v) ⟨_, List.getElem_mem hi, hv⟩
      simp only [Function.comp, hx, Option.getD_some, hx']
    rw [List.map_rotate, e]
    refine (List.IsRotated.symm ⟨1, rfl⟩).trans ?_
    simp only [List.get_eq_getElem, ek] at hr
    exact hr.map some
  · intro v
    rw [V.mem]
    constructor
    · rintro ⟨j, hj, hv⟩
      obtain ⟨i, hi, rfl⟩ := List.getElem_of_mem hj
      have hr := (List.forall₂_iff_get.1 hrel).2 i hi (by omega)
      exact ⟨_, List.getElem_mem (by omega), (hr.mem_iff).1 hv⟩
    · rintro ⟨k, hk, hv⟩
      obtain ⟨i, hi, rfl⟩ := List.getElem_of_mem hk
      have hr := (List.forall₂_iff_get.1 hrel).2 i (by omega) hi
      exact ⟨_, List.getElem_mem (by omega), (hr.mem_iff).2 hv⟩

end Mcut.Patches
