import Verif.Lemmas.C59

/-! Helper lemmas for C59: collecting the vertices and faces of the components. -/
namespace Mcut.Extract
open Mcut.Hmesh Mcut.Preproc
variable {P : Type} {d : P} {m : Mesh P} {flags : List Bool}

/-- A mesh that was made of vertices and faces has no other edges than those of the faces, and none twice. -/
theorem _root_.Mcut.Preproc.Built.edges {pts : List P} {fs : List (List Nat)} {c : Mesh P} (B : Built d pts fs c) :
    (∀ h, LiveH c h → (∃ f, LiveF c f ∧ h ∈ c.fh f) ∨ ∃ f, LiveF c f ∧ opposite h ∈ c.fh f) ∧
    ∀ h h', LiveH c h → LiveH c h' → c.target (opposite h) = c.target (opposite h') → c.target h = c.target h' → h = h' := by
  have W := reachable_wf B.reach
  have key : ∀ x a b, LiveH c x → (c.hd (opposite x)).t = a → (c.hd x).t = b → (a, b) ∈ fs.flatMap cycPairs → ∃ f, LiveF c f ∧ x ∈ c.fh f := by
    intro x a b hx h1 h2 h3
    obtain ⟨f, hf, hp⟩ := List.mem_flatMap.1 h3
    obtain ⟨i, hi, rfl⟩ := List.getElem_of_mem hf
    have hl : LiveF c i := (B.liveF i).2 hi
    rw [← B.face_pairs i _ (List.getElem?_eq_getElem hi)] at hp
    obtain ⟨y, hy, e⟩ := List.mem_map.1 hp
    have hy' : LiveH c y := ((W.faceOK hl).mem y hy).1
    simp only [Prod.mk.injEq] at e
    have : x = y := B.uniq x y hx hy' (by rw [h1, e.1]) (by rw [h2, e.2])
    rw [this]
    exact ⟨i, hl, hy⟩
  refine ⟨fun h hl => ?_, B.uniq⟩
  rcases B.only h hl with h1 | h1
  · exact .inl (key h _ _ hl rfl rfl h1)
  · right
    have O := ((C29_consistent B.reach).opp h hl)
    have e : opposite (opposite h) = h := by unfold opposite; split <;> split <;> omega
    exact key (opposite h) _ _ (by first | exact O.1 | exact O.2.1 | exact O.2.2) (by rw [e]) rfl h1

/-- A component record whose vertices are those in `S`. -/
structure RecV (d : P) (m : Mesh P) (flags : List Bool) (r : Rec P) (S : Nat → Prop) : Prop where
  built : Built d (r.fromCC.map m.pos) [] r.mesh
  nodup : r.fromCC.Nodup
  toCC : ∀ v i, r.toCC v = some i ↔ r.fromCC[i]? = some v
  mem : ∀ v, v ∈ r.fromCC ↔ S v
  seams : r.seams = (List.range r.fromCC.length).filter (fun i => isSeamVertex flags (r.fromCC.getD i 0))
  faces : r.faces = []

theorem RecV.new : RecV d m flags (Rec.new d) (fun _ => False) :=
  ⟨Built.empty d, by simp [Rec.new], by simp [Rec.new], by simp [Rec.new], by simp [Rec.new], rfl⟩

theorem RecV.congr {r : Rec P} {S S' : Nat → Prop} (R : RecV d m flags r S) (h : ∀ v, S v ↔ S' v) : RecV d m flags r S' :=
  ⟨R.built, R.nodup, R.toCC, fun v => (R.mem v).trans (h v), R.seams, R.faces⟩

theorem mapVertex_spec {r : Rec P} {S : Nat → Prop} (R : RecV d m flags r S) (v : Nat) :
    RecV d m flags (mapVertex m flags r v) (fun x => S x ∨ x = v) := by
  unfold mapVertex
  cases h : r.toCC v with
  | some i =>
    simp only
    refine R.congr (fun x => ?_)
    have : v ∈ r.fromCC := List.mem_of_getElem? ((R.toCC v i).1 h)
    constructor
    · exact Or.inl
    · rintro (hx | rfl)
      · exact hx
      · exact (R.mem x).1 this
  | none =>
    simp only
    have hv : v ∉ r.fromCC := by
      intro hv
      obtain ⟨i, hi, rfl⟩ := List.getElem_of_mem hv
      have := (R.toCC r.fromCC[i] i).2 (by simp [hi])
      rw [h] at this; cases this
    have hnew : (r.mesh.addVertex (m.pos v)).2 = r.fromCC.length := by
      simp [Mesh.addVertex, R.built.vRem, Mesh.numVertices, R.built.nV]
    rw [hnew]
    refine ⟨?_, ?_, ?_, ?_, ?_, R.faces⟩
    · have := R.built.addVertex (m.pos v)
      simpa using this
    · simp only
      rw [List.nodup_append]
      refine ⟨R.nodup, by simp, ?_⟩
      intro a ha b hb
      rw [List.mem_singleton] at hb; subst hb
      rintro rfl; exact hv ha
    · intro x i
      simp only
      by_cases hx : x = v
      · subst hx
        rw [upd_same]
        constructor
        · intro he; injection he with he; subst he
          simp
        · intro he
          by_cases hi : i < r.fromCC.length
          · rw [List.getElem?_append_left hi] at he
            exact absurd (List.mem_of_getElem? he) hv
          · have hlt := (List.getElem?_eq_some_iff.1 he).1
            simp at hlt
            have : i = r.fromCC.length := by omega
            rw [this]
      · rw [upd_other _ _ _ _ hx, R.toCC]
        by_cases hi : i < r.fromCC.length
        · rw [List.getElem?_append_left hi]
        · constructor
          · intro he; exact absurd (List.getElem?_eq_some_iff.1 he).1 hi
          · intro he
            have hlt := (List.getElem?_eq_some_iff.1 he).1
            simp at hlt
            have : i = r.fromCC.length := by omega
            subst this
            simp at he; exact absurd he.symm hx
    · intro x
      simp only [List.mem_append, List.mem_singleton]
      rw [R.mem]
    · simp only [List.length_append, List.length_singleton, List.range_succ, List.filter_append]
      have e1 : (List.range r.fromCC.length).filter (fun i => isSeamVertex flags ((r.fromCC ++ [v]).getD i 0)) = r.seams := by
        rw [R.seams]
        apply List.filter_congr
        intro i hi
        rw [List.mem_range] at hi
        simp [List.getD_eq_getElem?_getD, List.getElem?_append_left hi]
      rw [e1]
      by_cases hs : isSeamVertex flags v <;> simp [hs, List.getD_eq_getElem?_getD]

theorem mapVertices_spec (l : List Nat) : ∀ {r : Rec P} {S : Nat → Prop}, RecV d m flags r S →
    RecV d m flags (l.foldl (mapVertex m flags) r) (fun x => S x ∨ x ∈ l) := by
  induction l with
  | nil => intro r S R; exact R.congr (fun v => by simp)
  | cons v l ih =>
    intro r S R
    rw [List.foldl_cons]
    refine (ih (mapVertex_spec R v)).congr (fun x => ?_)
    simp only [List.mem_cons, or_assoc]

theorem sideOf_snoc (a : Args) (l : List Nat) (f : Nat) : sideOf a (l ++ [f]) = locStep a.below a.above f (sideOf a l) := by
  have hb : ∀ s : List Nat, (∃ g ∈ l ++ [f], g ∈ s) ↔ (∃ g ∈ l, g ∈ s) ∨ f ∈ s := by
    intro s; simp [or_and_right, exists_or]
  unfold sideOf locStep
  simp only [hb, List.contains_iff_mem]
  by_cases h1 : ∃ g ∈ l, g ∈ a.below <;> by_cases h2 : ∃ g ∈ l, g ∈ a.above <;> by_cases h3 : f ∈ a.below <;> by_cases h4 : f ∈ a.above <;>
    simp only [h1, h2, h3, h4, markBelow, markAbove, and_self, or_self, or_true, true_or, or_false, if_true, if_false, and_true, true_and, and_false]

/-- After the first loop over the faces in `done`. -/
structure VI (d : P) (m : Mesh P) (a : Args) (s : St P) (done : List Nat) : Prop where
  none : ∀ k, s.recs k = none ↔ ∀ f ∈ done, faceComponent m f ≠ some k
  some : ∀ k r, s.recs k = some r → RecV d m a.flags r (fun v => ∃ f ∈ done, faceComponent m f = Option.some k ∧ v ∈ m.verticesAroundFace f)
  loc : ∀ k, s.loc k = sideOf a (done.filter (fun f => faceComponent m f = Option.some k))

theorem mapFaces_spec (a : Args) : ∀ (fs done : List Nat) (s : St P), (∀ f ∈ fs, faceComponent m f ≠ none) → VI d m a s done →
    ∃ s', mapFaces d m a.below a.above a.flags fs s = some s' ∧ VI d m a s' (done ++ fs) := by
  intro fs
  induction fs with
  | nil => intro done s _ V; exact ⟨s, rfl, by simpa using V⟩
  | cons f fs ih =>
    intro done s hc V
    obtain ⟨k, hk⟩ := Option.ne_none_iff_exists'.1 (hc f (by simp))
    unfold mapFaces
    rw [hk]
    simp only [Option.bind_some]
    have V' : VI d m a (mapFace d m a.below a.above a.flags k f s) (done ++ [f]) := by
      unfold mapFace
      refine ⟨?_, ?_, ?_⟩
      · intro j
        simp only
        by_cases hj : j = k
        · subst hj; rw [upd_same]; simp [hk]
        · rw [upd_other _ _ _ _ hj, V.none]
          have : k ≠ j := fun h => hj h.symm
          simp [hk, this, or_imp, forall_and]
      · intro j r hr
        simp only at hr
        by_cases hj : j = k
        · subst hj
          rw [upd_same] at hr
          injection hr with hr
          subst hr
          have base : RecV d m a.flags ((s.recs j).getD (Rec.new d)) (fun v => ∃ f ∈ done, faceComponent m f = some j ∧ v ∈ m.verticesAroundFace f) := by
            cases h : s.recs j with
            | none =>
              have := (V.none j).1 h
              refine RecV.new.congr (fun v => ?_)
              constructor
              · exact False.elim
              · rintro ⟨g, hg, hg2, -⟩; exact this g hg hg2
            | some r0 => exact V.some j r0 h
          refine (mapVertices_spec (m.verticesAroundFace f) base).congr (fun v => ?_)
          constructor
          · rintro (⟨g, h1, h2, h3⟩ | h)
            · exact ⟨g, by simp [h1], h2, h3⟩
            · exact ⟨f, by simp, hk, h⟩
          · rintro ⟨g, h1, h2, h3⟩
            rcases List.mem_append.1 h1 with h1 | h1
            · exact Or.inl ⟨g, h1, h2, h3⟩
            · rw [List.mem_singleton] at h1; subst h1; exact Or.inr h3
        · rw [upd_other _ _ _ _ hj] at hr
          refine (V.some j r hr).congr (fun v => ?_)
          have : k ≠ j := fun h => hj h.symm
          constructor
          · rintro ⟨g, h1, h2⟩; exact ⟨g, by simp [h1], h2⟩
          · rintro ⟨g, h1, h2⟩
            rcases List.mem_append.1 h1 with h1 | h1
            · exact ⟨g, h1, h2⟩
            · rw [List.mem_singleton] at h1; subst h1
              rw [hk] at h2; injection h2.1 with h; exact absurd h this
      · intro j
        simp only
        rw [List.filter_append]
        by_cases hj : j = k
        · subst hj
          rw [upd_same, V.loc]
          have : [f].filter (fun f => decide (faceComponent m f = some j)) = [f] := by simp [hk]
          rw [this, sideOf_snoc]
        · rw [upd_other _ _ _ _ hj, V.loc]
          have : k ≠ j := fun h => hj h.symm
          have e : [f].filter (fun f => decide (faceComponent m f = some j)) = [] := by simp [hk, this]
          rw [e, List.append_nil]
    obtain ⟨s', h1, h2⟩ := ih (done ++ [f]) _ (fun g hg => hc g (by simp [hg])) V'
    exact ⟨s', h1, by simpa using h2⟩

end Mcut.Extract
