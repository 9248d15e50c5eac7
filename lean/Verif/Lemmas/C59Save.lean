import Verif.Lemmas.C59Face

/-! Helper lemmas for C59: saving the components. -/
namespace Mcut.Extract
open Mcut.Hmesh Mcut.Preproc Mcut.Sched
variable {P : Type} {d : P} {m : Mesh P} {a : Args}

theorem mapM_eq {α β : Type} (t : α → Option β) : ∀ (l : List α) (r : List β), l.mapM t = some r →
    r.length = l.length ∧ ∀ (i : Nat) (x : α), l[i]? = some x → t x = r[i]? := by
  intro l
  induction l with
  | nil =>
    intro r h
    rw [List.mapM_nil] at h
    cases h; simp
  | cons x l ih =>
    intro r h
    rw [List.mapM_cons] at h
    cases hx : t x with
    | none => rw [hx] at h; cases h
    | some y =>
      rw [hx] at h
      cases hl : l.mapM t with
      | none => rw [hl] at h; cases h
      | some ys =>
        rw [hl] at h
        cases h
        obtain ⟨h1, h2⟩ := ih ys hl
        refine ⟨by simp [h1], fun i z hz => ?_⟩
        cases i with
        | zero => simp at hz; subst hz; simp [hx]
        | succ i => simp at hz; simp [h2 i z hz]

/-- What is stored for one component. -/
structure Saved (a : Args) (loc : Option Loc) (r : Rec P) (c : Mesh P × Info) : Prop where
  mesh : c.1 = r.mesh
  loc : if ¬ a.below.isEmpty ∧ ¬ a.above.isEmpty then loc = some c.2.loc else c.2.loc = .undefined
  seams : c.2.seams = r.seams
  vmap : a.popV = true → c.2.vmap.length = r.mesh.numVertices ∧ ∀ i, i < r.mesh.numVertices → (r.fromCC[i]?).bind (vertexOrigin a.tables) = c.2.vmap[i]?
  fmap : a.popF = true → c.2.fmap.length = r.mesh.numFaces ∧ ∀ i, i < r.mesh.numFaces → (r.faces[i]?).bind (faceOrigin a.tables a.offset) = c.2.fmap[i]?

theorem saveOne_spec {loc : Nat → Option Loc} {k : Nat} {r : Rec P} {out out' : Store P} (h : saveOne a loc k r out = some out') (hk : out k = []) :
    (∀ j, j ≠ k → out' j = out j) ∧ (kept a.keep (loc k) = false → out' k = []) ∧
    (kept a.keep (loc k) = true → ∃ c, out' k = [c] ∧ Saved a (loc k) r c) := by
  unfold saveOne at h
  by_cases hkeep : kept a.keep (loc k) = true
  · rw [if_pos hkeep, hk] at h
    simp only [List.getLast?_nil, if_true] at h
    generalize hl : (if ¬ a.below.isEmpty ∧ ¬ a.above.isEmpty then loc k else some Loc.undefined) = ol at h
    cases ol with
    | none => cases h
    | some l =>
      simp only [Option.bind_some] at h
      generalize hv : (if a.popV then (List.range r.mesh.numVertices).mapM (fun i => (r.fromCC[i]?).bind (vertexOrigin a.tables)) else some []) = ov at h
      cases ov with
      | none => cases h
      | some vm =>
        simp only [Option.bind_some] at h
        generalize hf : (if a.popF then (List.range r.mesh.numFaces).mapM (fun i => (r.faces[i]?).bind (faceOrigin a.tables a.offset)) else some []) = of at h
        cases of with
        | none => cases h
        | some fm =>
          simp only [Option.bind_some, Option.some.injEq] at h
          subst h
          refine ⟨fun j hj => upd_other _ _ _ _ hj, fun hc => ?_, fun _ => ⟨_, upd_same _ _ _, rfl, ?_, rfl, ?_, ?_⟩⟩
          · rw [hkeep] at hc; cases hc
          · simp only
            split at hl
            · next hc => rw [if_pos hc]; exact hl
            · next hc => rw [if_neg hc]; injection hl with hl; exact hl.symm
          · intro hp
            rw [if_pos hp] at hv
            have := mapM_eq _ _ _ hv
            refine ⟨by simpa using this.1, fun i hi => this.2 i i (by simp [hi])⟩
          · intro hp
            rw [if_pos hp] at hf
            have := mapM_eq _ _ _ hf
            refine ⟨by simpa using this.1, fun i hi => this.2 i i (by simp [hi])⟩
  · rw [if_neg hkeep] at h
    injection h with h; subst h
    exact ⟨fun _ _ => rfl, fun _ => hk, fun hc => absurd hc hkeep⟩

theorem saveAll_spec {loc : Nat → Option Loc} {R : Nat → Option (Rec P)} : ∀ (ks : List Nat) (out out' : Store P), ks.Nodup → (∀ k ∈ ks, out k = []) →
    saveAll a loc R ks out = some out' →
    (∀ j, j ∉ ks → out' j = out j) ∧ ∀ k ∈ ks, (R k = none → out' k = []) ∧
      ∀ r, R k = some r → (kept a.keep (loc k) = false → out' k = []) ∧ (kept a.keep (loc k) = true → ∃ c, out' k = [c] ∧ Saved a (loc k) r c) := by
  intro ks
  induction ks with
  | nil => intro out out' _ _ h; injection h with h; subst h; exact ⟨fun _ _ => rfl, by simp⟩
  | cons k ks ih =>
    intro out out' hnd hout h
    rw [List.nodup_cons] at hnd
    unfold saveAll at h
    have key : ∀ out1, (∀ j, j ≠ k → out1 j = out j) → saveAll a loc R ks out1 = some out' →
        (∀ j, j ∉ k :: ks → out' j = out j) ∧ out' k = out1 k ∧ ∀ j ∈ ks, (R j = none → out' j = []) ∧
          ∀ r, R j = some r → (kept a.keep (loc j) = false → out' j = []) ∧ (kept a.keep (loc j) = true → ∃ c, out' j = [c] ∧ Saved a (loc j) r c) := by
      intro out1 h1 h2
      have := ih out1 out' hnd.2 (fun j hj => by
        rw [h1 j (by rintro rfl; exact hnd.1 hj)]; exact hout j (by simp [hj])) h2
      refine ⟨fun j hj => ?_, this.1 k hnd.1, this.2⟩
      simp only [List.mem_cons, not_or] at hj
      rw [this.1 j hj.2, h1 j hj.1]
    cases hR : R k with
    | none =>
      rw [hR] at h
      obtain ⟨k1, k2, k3⟩ := key out (fun _ _ => rfl) h
      refine ⟨k1, fun j hj => ?_⟩
      rcases List.mem_cons.1 hj with rfl | hj
      · refine ⟨fun _ => by rw [k2]; exact hout j (by simp), fun r hr => ?_⟩
        rw [hR] at hr; cases hr
      · exact k3 j hj
    | some r =>
      rw [hR] at h
      simp only at h
      cases hs : saveOne a loc k r out with
      | none => rw [hs] at h; cases h
      | some out1 =>
        rw [hs] at h
        simp only [Option.bind_some] at h
        obtain ⟨s1, s2, s3⟩ := saveOne_spec hs (hout k (by simp))
        obtain ⟨k1, k2, k3⟩ := key out1 s1 h
        refine ⟨k1, fun j hj => ?_⟩
        rcases List.mem_cons.1 hj with rfl | hj
        · refine ⟨fun hn => (by rw [hR] at hn; cases hn), fun r' hr' => ?_⟩
          rw [hR] at hr'; injection hr' with hr'; subst hr'
          rw [k2]; exact ⟨s2, s3⟩
        · exact k3 j hj

/-- The merge order is a rearrangement of the faces. -/
theorem faceOrder_perm {n : Nat} {threads : Option Nat} {order : List Nat} (ht : ∀ t, threads = some t → 0 < t ∧ n + 1024 ≤ 2 ^ 32)
    (h : faceOrder n threads = some order) : order.Perm (List.range n) := by
  cases threads with
  | none => injection h with h; rw [← h]
  | some t =>
    obtain ⟨h1, h2⟩ := ht t rfl
    unfold faceOrder at h
    simp only at h
    by_cases hn : n = 0
    · subst hn
      rw [C17_empty_range_fails t 1024 (by omega) (by omega)] at h
      cases h
    · obtain ⟨bs, hb, hpos, -, -, hflat⟩ := C17_blocks_partition_partial n t 1024 (by omega) h1 (by omega) h2
      rw [hb] at h
      injection h with h
      rw [← h, ← hflat]
      have hne : bs ≠ [] := by rintro rfl; simp at hpos
      rw [List.getLast?_eq_some_getLast hne]
      simp only [Option.map_some, Option.getD_some]
      conv_rhs => rw [← List.dropLast_append_getLast hne, List.flatMap_append]
      rw [List.flatMap_cons, List.flatMap_nil, List.append_nil]
      exact List.perm_append_comm

end Mcut.Extract
