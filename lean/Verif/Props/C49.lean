import Verif.Spec.C49
import Verif.Props.C33

/-! C49 — the watertightness check is exact. -/
namespace Mcut.Hmesh
variable {P : Type}

/-- C49: a mesh is considered closed iff every live edge is used by two faces. -/
theorem C49_closed_iff {d : P} {m : Mesh P} (h : Reachable d m) : m.isClosed = true ↔ ∀ e, LiveE m e → UsedTwice m e := by
  have W := reachable_wf h
  unfold Mesh.isClosed
  rw [List.all_eq_true, (C32_enumeration m).2.2.1]
  have hmem : ∀ x, x ∈ liveList m.nH m.hRem ↔ LiveH m x := by intro x; simp [liveList, LiveH, Live]
  constructor
  · intro hall e he
    have l0 : LiveH m (halfedgeOf e 0) := (W.liveH_iff _).2 (by rwa [halfedgeOf, show (e * 2 + 0) / 2 = e by omega])
    have l1 : LiveH m (halfedgeOf e 1) := (W.liveH_iff _).2 (by rwa [halfedgeOf, show (e * 2 + 1) / 2 = e by omega])
    obtain ⟨f, hf⟩ := Option.isSome_iff_exists.1 (hall _ ((hmem _).2 l0))
    obtain ⟨g, hg⟩ := Option.isSome_iff_exists.1 (hall _ ((hmem _).2 l1))
    have a := W.ofFace l0 hf
    have b := W.ofFace l1 hg
    exact ⟨f, g, a.1, b.1, a.2, b.2⟩
  · intro hall x hx
    rw [hmem] at hx
    obtain ⟨f, g, hf, hg, h0, h1⟩ := hall (x / 2) ((W.liveH_iff x).1 hx)
    have a := ((W.faceOK hf).mem _ h0).2
    have b := ((W.faceOK hg).mem _ h1).2
    unfold Mesh.face
    unfold halfedgeOf at a b
    rcases Nat.mod_two_eq_zero_or_one x with hm | hm
    · rw [show x / 2 * 2 + 0 = x by omega] at a; rw [a]; rfl
    · rw [show x / 2 * 2 + 1 = x by omega] at b; rw [b]; rfl

/-- C49: equivalently, no live edge is a border edge. -/
theorem C49_no_border {d : P} {m : Mesh P} (h : Reachable d m) : m.isClosed = true ↔ ∀ e, LiveE m e → m.isBorder e = false := by
  have W := reachable_wf h
  rw [C49_closed_iff h]
  apply forall_congr'; intro e
  apply forall_congr'; intro he
  have l0 : LiveH m (halfedgeOf e 0) := (W.liveH_iff _).2 (by rwa [halfedgeOf, show (e * 2 + 0) / 2 = e by omega])
  have l1 : LiveH m (halfedgeOf e 1) := (W.liveH_iff _).2 (by rwa [halfedgeOf, show (e * 2 + 1) / 2 = e by omega])
  unfold Mesh.isBorder UsedTwice Mesh.face
  constructor
  · rintro ⟨f, g, hf, hg, h0, h1⟩
    rw [((W.faceOK hf).mem _ h0).2, ((W.faceOK hg).mem _ h1).2]; rfl
  · intro hb
    cases hf : (m.hd (halfedgeOf e 0)).f with
    | none => rw [hf] at hb; simp at hb
    | some f =>
      cases hg : (m.hd (halfedgeOf e 1)).f with
      | none => rw [hg] at hb; simp at hb
      | some g =>
        have a := W.ofFace l0 hf
        have b := W.ofFace l1 hg
        exact ⟨f, g, a.1, b.1, a.2, b.2⟩

/-- The pairs of a loaded face are the ends of its halfedges. -/
theorem built_pairs {d : P} {pts : List P} {fs : List (List Nat)} {m : Mesh P} (B : Preproc.Built d pts fs m) {u v : Nat} :
    (u, v) ∈ fs.flatMap Preproc.dirEdges ↔ ∃ i h, i < fs.length ∧ h ∈ m.fh i ∧ (m.hd (opposite h)).t = u ∧ (m.hd h).t = v := by
  have key : ∀ i f, fs[i]? = some f → ((u, v) ∈ Preproc.dirEdges f ↔ ∃ h ∈ m.fh i, (m.hd (opposite h)).t = u ∧ (m.hd h).t = v) := by
    intro i f hf
    rw [Preproc.dirEdges_eq, cycPairs, ← B.tgts i f hf, ← B.srcs i f hf, List.zip_map']
    simp [Prod.ext_iff]
  rw [List.mem_flatMap]
  constructor
  · rintro ⟨f, hf, hm⟩
    obtain ⟨i, hi⟩ := List.mem_iff_getElem?.1 hf
    obtain ⟨h, h1, h2⟩ := (key i f hi).1 hm
    exact ⟨i, h, (List.getElem?_eq_some_iff.1 hi).1, h1, h2⟩
  · rintro ⟨i, h, hi, h1, h2⟩
    exact ⟨fs[i], List.getElem_mem hi, (key i _ (List.getElem?_eq_getElem hi)).2 ⟨h, h1, h2⟩⟩

/-- C49 for the client's arrays: a loaded mesh is considered closed iff each directed edge of a face is, reversed, a directed edge of a face. -/
theorem C49_arrays {d : P} {pts : List P} {fs : List (List Nat)} {m : Mesh P} (B : Preproc.Built d pts fs m) :
    m.isClosed = true ↔ ∀ u v, (u, v) ∈ fs.flatMap Preproc.dirEdges → (v, u) ∈ fs.flatMap Preproc.dirEdges := by
  have W := reachable_wf B.reach
  have live : ∀ i, i < fs.length → LiveF m i := by
    intro i hi; unfold LiveF Live; rw [B.nF, B.fRem]; exact ⟨hi, by simp⟩
  have flip : ∀ x, opposite (opposite x) = x := by intro x; unfold opposite; split <;> split <;> omega
  have hmem : ∀ x, x ∈ liveList m.nH m.hRem ↔ LiveH m x := by intro x; simp [liveList, LiveH, Live]
  unfold Mesh.isClosed
  rw [List.all_eq_true, (C32_enumeration m).2.2.1]
  have lo : ∀ x, LiveH m x → LiveH m (opposite x) := by
    intro x hx
    rw [W.liveH_iff] at hx ⊢
    have : opposite x / 2 = x / 2 := by unfold opposite; split <;> omega
    rwa [this]
  constructor
  · intro hall u v h
    obtain ⟨i, x, hi, hx, e1, e2⟩ := (built_pairs B).1 h
    have lx := ((W.faceOK (live i hi)).mem _ hx).1
    obtain ⟨g, hg⟩ := Option.isSome_iff_exists.1 (hall _ ((hmem _).2 (lo _ lx)))
    have a := W.ofFace (lo _ lx) hg
    refine (built_pairs B).2 ⟨g, opposite x, ?_, a.2, by rw [flip]; exact e2, e1⟩
    rw [← B.nF]; exact a.1.1
  · intro hall x hx
    rw [hmem] at hx
    have : ((m.hd (opposite x)).t, (m.hd x).t) ∈ fs.flatMap Preproc.dirEdges := by
      have e : fs.flatMap Preproc.dirEdges = fs.flatMap cycPairs := by
        congr 1; funext f; exact Preproc.dirEdges_eq f
      rcases B.only x hx with h | h
      · rw [e]; exact h
      · apply hall; rw [e]; exact h
    obtain ⟨i, y, hi, hy, e1, e2⟩ := (built_pairs B).1 this
    have ly := (W.faceOK (live i hi)).mem _ hy
    have := B.uniq y x ly.1 hx e1 e2
    subst this
    unfold Mesh.face; rw [ly.2]; rfl

/-- Non-vacuity: the tetrahedron is closed, and not closed with a face missing. -/
example : (runAll (Mesh.empty ()) demoOps).map Mesh.isClosed = some true ∧
    (runAll (Mesh.empty ()) (demoOps.take 9)).map Mesh.isClosed = some false := by
  constructor <;> decide +kernel

end Mcut.Hmesh
