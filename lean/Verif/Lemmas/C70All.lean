import Verif.Lemmas.C70Step
import Mathlib.Data.List.Perm.Subperm

/-! Lemmas for C70: all edges. -/
namespace Mcut.Boundary
open Mcut.Hmesh Mcut.Registry Mcut.CutEdges
variable {P : Type}

/-- The edges `done` of "ps" have been dealt with, in this order. -/
structure Upto (d : P) (ps : Mesh P) (base : Nat) (pts : Nat → List Nat) (sort : Nat → Nat → List Nat → List Nat) (c : CutEdges.St P) (done : List Nat)
    (pieces : Nat → List Nat) (st : St P) : Prop where
  sound : Sound d c base st.m0 st.incoming
  cover : done.flatMap pieces = List.range' c.m0.nE (st.m0.nE - c.m0.nE)
  leads : ∀ e ∈ done, Leads st.m0 (along ps pts sort e) (pieces e)
  chains : ∀ e, st.chains e = if e ∈ done ∧ 1 < (pts e).length then pieces e else []
  plain : ∀ e ∈ done, pts e = [] → st.plain e = (pieces e).head?
  faces : ∀ f, c.faceEdges f ≠ [] → (st.faceEdges f).Perm (c.faceEdges f ++ done.flatMap (fun e => shares (facesOf ps e) (pieces e) f))
  others : ∀ f, c.faceEdges f = [] → st.faceEdges f = []

variable {d : P} {ps : Mesh P} {base : Nat} {pts : Nat → List Nat} {sort : Nat → Nat → List Nat → List Nat} {c : CutEdges.St P}

theorem Upto.entry {done : List Nat} {pieces : Nat → List Nat} {st : St P} (U : Upto d ps base pts sort c done pieces st) (f : Nat) :
    entry st f = true ↔ c.faceEdges f ≠ [] := by
  unfold Boundary.entry
  constructor
  · intro h hc; rw [U.others f hc] at h; simp at h
  · intro h
    have := U.faces f h
    cases hs : st.faceEdges f with
    | nil =>
      rw [hs] at this
      have := this.symm.eq_nil
      rw [List.append_eq_nil_iff] at this
      exact absurd this.1 h
    | cons a l => rfl

theorem flatMap_congr' {α β : Type} {l : List α} {f g : α → List β} (h : ∀ x ∈ l, f x = g x) : l.flatMap f = l.flatMap g := by
  induction l with
  | nil => rfl
  | cons a l ih => rw [List.flatMap_cons, List.flatMap_cons, h a (by simp), ih (fun x hx => h x (by simp [hx]))]

theorem Upto.step {done : List Nat} {pieces : Nat → List Nat} {st st' : St P} (U : Upto d ps base pts sort c done pieces st) {e : Nat} (hnew : e ∉ done) {es : List Nat}
    (T : Stepped d ps base pts sort c e es st st') : Upto d ps base pts sort c (done ++ [e]) (fun x => if x = e then es else pieces x) st' := by
  have hle := U.sound.le
  have hold : ∀ x ∈ done, (fun x => if x = e then es else pieces x) x = pieces x := fun x hx => if_neg (fun (h : x = e) => hnew (by rw [← h]; exact hx))
  have hlt : ∀ x ∈ done, ∀ y ∈ pieces x, y < st.m0.nE := by
    intro x hx y hy
    have : y ∈ done.flatMap pieces := List.mem_flatMap.2 ⟨x, hx, hy⟩
    rw [U.cover, List.mem_range'] at this
    obtain ⟨i, hi, rfl⟩ := this
    omega
  refine ⟨T.sound, ?_, ?_, ?_, ?_, ?_, ?_⟩
  · rw [List.flatMap_append, flatMap_congr' hold, U.cover]
    simp only [List.flatMap_cons, List.flatMap_nil, if_true, List.append_nil]
    rw [T.nE]
    conv_lhs => rw [T.pieces]
    have h1 : st.m0.nE = c.m0.nE + 1 * (st.m0.nE - c.m0.nE) := by omega
    conv_lhs => rw [h1]
    have h2 : c.m0.nE + 1 * (st.m0.nE - c.m0.nE) - c.m0.nE = st.m0.nE - c.m0.nE := by omega
    rw [h2, List.range'_append]
    congr 1
    omega
  · intro x hx
    rw [List.mem_append] at hx
    rcases hx with hx | hx
    · have := hold x hx
      simp only at this ⊢
      rw [this]
      exact leads_same (fun y hy h hh => T.old h (by have := hlt x hx y hy; omega)) (U.leads x hx)
    · simp at hx; subst hx
      simp only [if_true]
      exact T.leads
  · intro x
    rw [T.chains, U.chains]
    by_cases hx : x = e
    · subst hx
      simp only [if_true, hnew, false_and, if_false, List.nil_append, true_and, List.mem_append, List.mem_singleton, or_true]
    · simp only [hx, if_false, false_and, List.mem_append, List.mem_singleton, or_false]
  · intro x hx h0
    rw [T.plain]
    rw [List.mem_append] at hx
    by_cases hxe : x = e
    · subst hxe; rw [if_pos ⟨rfl, h0⟩]; simp
    · rw [if_neg (fun h => hxe h.1)]
      rcases hx with hx | hx
      · simp only [hxe, if_false]; exact U.plain x hx h0
      · simp at hx; exact absurd hx hxe
  · intro f hf
    refine (T.faces f hf).trans ?_
    rw [List.flatMap_append]
    rw [flatMap_congr' (l := done) (f := fun x => shares (facesOf ps x) (if x = e then es else pieces x) f) (g := fun x => shares (facesOf ps x) (pieces x) f)
      (fun x hx => by have := hold x hx; simp only at this ⊢; rw [this])]
    simp only [List.flatMap_cons, List.flatMap_nil, if_true, List.append_nil]
    rw [← List.append_assoc]
    exact List.Perm.append_right _ (U.faces f hf)
  · intro f hf; rw [T.others f hf]; exact U.others f hf

theorem upto_start (R : Ready d ps base pts c) : Upto d ps base pts sort c [] (fun _ => []) (start c) := by
  refine ⟨⟨R.m0Ok, rfl, R.vertices, rfl, R.noFaces, R.edges, Nat.le_refl _, fun _ _ => rfl, fun v _ => R.incoming v, ?_⟩, by simp [start], by simp, ?_, by simp, ?_, ?_⟩
  · intro v hv
    rw [List.eq_nil_iff_forall_not_mem]
    intro h hh
    obtain ⟨h1, h2⟩ := ((R.incoming v).2 h).1 hh
    have := R.cutEnds h h1
    omega
  · intro e; simp [start]
  · intro f hf; simp [start]
  · intro f hf; exact hf

theorem part1_upto (R : Ready d ps base pts c) (A : Arranges ps pts sort) : ∀ (order done : List Nat) (pieces : Nat → List Nat) (st : St P),
    Upto d ps base pts sort c done pieces st → (done ++ order).Nodup → (∀ e ∈ order, LiveE ps e ∧ 1 < (pts e).length) →
    ∃ pieces', Upto d ps base pts sort c (done ++ order) pieces' (part1 ps pts sort order st) := by
  intro order
  induction order with
  | nil => intro done pieces st U _ _; exact ⟨pieces, by rw [List.append_nil]; exact U⟩
  | cons e order ih =>
    intro done pieces st U hnd hl
    obtain ⟨es, T⟩ := chain_step (sort := sort) R A (hl e (by simp)).1 (hl e (by simp)).2 U.sound
    have hne : e ∉ done := by
      intro h
      rw [List.nodup_append] at hnd
      exact hnd.2.2 e h e (by simp) rfl
    have := ih (done ++ [e]) _ _ (U.step hne T) (by simpa using hnd) (fun x hx => hl x (by simp [hx]))
    simpa [part1] using this

theorem edgeStep_skip {known : Nat → Bool} {st : St P} {e : Nat} (h : 1 < (pts e).length) : edgeStep ps base pts known st e = st := by
  unfold edgeStep
  match hp : pts e with
  | [] => rw [hp] at h; simp at h
  | [x] => rw [hp] at h; simp at h
  | _ :: _ :: _ => rfl

/-- The edges that part 2 divides. -/
def few (pts : Nat → List Nat) (l : List Nat) : List Nat := l.filter (fun e => decide ((pts e).length ≤ 1))

/-- Steps of part 2 whose lookups see an intermediate state. -/
theorem steps_upto (R : Ready d ps base pts c) : ∀ (edges done : List Nat) (pieces : Nat → List Nat) (st : St P) (known : Nat → Nat → Bool),
    Upto d ps base pts sort c done pieces st → (done ++ few pts edges).Nodup → (∀ e ∈ edges, LiveE ps e) → (∀ e f, known e f = true ↔ c.faceEdges f ≠ []) →
    ∃ pieces', Upto d ps base pts sort c (done ++ few pts edges) pieces' (edges.foldl (fun st e => edgeStep ps base pts (known e) st e) st) := by
  intro edges
  induction edges with
  | nil => intro done pieces st known U _ _ _; exact ⟨pieces, by rw [show few pts [] = [] from rfl, List.append_nil]; exact U⟩
  | cons e edges ih =>
    intro done pieces st known U hnd hl hk
    rw [List.foldl_cons]
    by_cases hp : 1 < (pts e).length
    · rw [edgeStep_skip hp]
      have hf : few pts (e :: edges) = few pts edges := by
        unfold few; rw [List.filter_cons, if_neg (by simpa using hp)]
      rw [hf] at hnd ⊢
      exact ih done pieces st known U hnd (fun x hx => hl x (by simp [hx])) hk
    · have hf : few pts (e :: edges) = e :: few pts edges := by
        unfold few; rw [List.filter_cons, if_pos (by simpa using hp)]
      rw [hf] at hnd ⊢
      obtain ⟨es, T⟩ := edgeStep_step (sort := sort) R (hl e (by simp)) hp U.sound (hk e)
      have hne : e ∉ done := by
        intro h
        rw [List.nodup_append] at hnd
        exact hnd.2.2 e h e (by simp) rfl
      have := ih (done ++ [e]) _ _ known (U.step hne T) (by simpa using hnd) (fun x hx => hl x (by simp [hx])) hk
      simpa using this

theorem sequential_upto (R : Ready d ps base pts c) : ∀ (edges done : List Nat) (pieces : Nat → List Nat) (st : St P),
    Upto d ps base pts sort c done pieces st → (done ++ few pts edges).Nodup → (∀ e ∈ edges, LiveE ps e) →
    ∃ pieces', Upto d ps base pts sort c (done ++ few pts edges) pieces' (sequential ps base pts edges st) := by
  intro edges
  induction edges with
  | nil => intro done pieces st U _ _; exact ⟨pieces, by rw [show few pts [] = [] from rfl, List.append_nil]; exact U⟩
  | cons e edges ih =>
    intro done pieces st U hnd hl
    have hseq : sequential ps base pts (e :: edges) st = sequential ps base pts edges (edgeStep ps base pts (Boundary.entry st) st e) := rfl
    rw [hseq]
    by_cases hp : 1 < (pts e).length
    · rw [edgeStep_skip hp]
      have hf : few pts (e :: edges) = few pts edges := by
        unfold few; rw [List.filter_cons, if_neg (by simpa using hp)]
      rw [hf] at hnd ⊢
      exact ih done pieces st U hnd (fun x hx => hl x (by simp [hx]))
    · have hf : few pts (e :: edges) = e :: few pts edges := by
        unfold few; rw [List.filter_cons, if_pos (by simpa using hp)]
      rw [hf] at hnd ⊢
      obtain ⟨es, T⟩ := edgeStep_step (sort := sort) R (hl e (by simp)) hp U.sound (U.entry)
      have hne : e ∉ done := by
        intro h
        rw [List.nodup_append] at hnd
        exact hnd.2.2 e h e (by simp) rfl
      have := ih (done ++ [e]) _ _ (U.step hne T) (by simpa using hnd) (fun x hx => hl x (by simp [hx]))
      simpa using this

/-- A block with thread pool does what the same edges do without it. -/
theorem block_upto (R : Ready d ps base pts c) {st : St P} {done : List Nat} {pieces : Nat → List Nat} (U : Upto d ps base pts sort c done pieces st)
    {known : Nat → Nat → Bool} (hk : ∀ e f, known e f = true ↔ c.faceEdges f ≠ []) (block : List Nat) (hnd : (done ++ few pts block).Nodup)
    (hl : ∀ e ∈ block, LiveE ps e) :
    InRange (localOf ps base pts known block) ∧
      merge (localOf ps base pts known block) st = block.foldl (fun st e => edgeStep ps base pts (known e) st e) st := by
  have h0 : merge (⟨[], [], fun _ => [], fun _ => []⟩ : Local) st = st := by unfold merge addLocal; simp
  induction block using List.reverseRecOn with
  | nil => exact ⟨⟨by simp [localOf], by simp [localOf], by simp [localOf]⟩, h0⟩
  | append_singleton block e ih =>
    have hfew : few pts (block ++ [e]) = few pts block ++ few pts [e] := by unfold few; rw [List.filter_append]
    rw [hfew, ← List.append_assoc] at hnd
    have hnd' := (List.nodup_append.1 hnd).1
    obtain ⟨i1, i2⟩ := ih hnd' (fun x hx => hl x (by simp [hx]))
    obtain ⟨p1, U1⟩ := steps_upto R block done pieces st known U hnd' (fun x hx => hl x (by simp [hx])) hk
    rw [← i2] at U1
    have hlo : localOf ps base pts known (block ++ [e]) = localStep ps base pts (known e) (localOf ps base pts known block) e := by
      unfold localOf; rw [List.foldl_append]; rfl
    rw [hlo, List.foldl_append]
    obtain ⟨j1, j2⟩ := merge_step R (hl e (by simp)) i1 U1.sound (known e)
    refine ⟨j1, ?_⟩
    rw [j2, i2]
    rfl

theorem mergeAll_upto (R : Ready d ps base pts c) (seen : Nat → Nat → Nat) : ∀ (blocks : List (List Nat)) (done : List Nat) (pieces : Nat → List Nat) (hist : List (St P)) (st : St P),
    Upto d ps base pts sort c done pieces st → (∀ s ∈ hist, ∀ f, Boundary.entry s f = true ↔ c.faceEdges f ≠ []) → (done ++ few pts blocks.flatten).Nodup →
    (∀ e ∈ blocks.flatten, LiveE ps e) →
    ∃ pieces', Upto d ps base pts sort c (done ++ few pts blocks.flatten) pieces' (mergeAll ps base pts seen blocks hist st) := by
  intro blocks
  induction blocks with
  | nil => intro done pieces hist st U _ _ _; exact ⟨pieces, by rw [show few pts (List.flatten []) = [] from rfl, List.append_nil]; exact U⟩
  | cons b blocks ih =>
    intro done pieces hist st U hh hnd hl
    have hfew : few pts (List.flatten (b :: blocks)) = few pts b ++ few pts blocks.flatten := by unfold few; rw [List.flatten_cons, List.filter_append]
    rw [hfew, ← List.append_assoc] at hnd ⊢
    rw [List.flatten_cons] at hl
    rw [mergeAll]
    have hh' : ∀ s ∈ hist ++ [st], ∀ f, Boundary.entry s f = true ↔ c.faceEdges f ≠ [] := by
      intro s hs f
      rw [List.mem_append] at hs
      rcases hs with hs | hs
      · exact hh s hs f
      · simp at hs; subst hs; exact U.entry f
    have hk : ∀ e f, Boundary.entry ((hist ++ [st]).getD (seen hist.length e) st) f = true ↔ c.faceEdges f ≠ [] := by
      intro e f
      refine hh' _ ?_ f
      rw [List.getD_eq_getElem?_getD]
      cases hg : (hist ++ [st])[seen hist.length e]? with
      | none => simp
      | some s => exact List.mem_of_getElem? hg
    have hnd1 := (List.nodup_append.1 hnd).1
    have hl1 : ∀ e ∈ b, LiveE ps e := fun e he => hl e (List.mem_append_left _ he)
    obtain ⟨-, heq⟩ := block_upto R U (known := fun e f => Boundary.entry ((hist ++ [st]).getD (seen hist.length e) st) f) hk b hnd1 hl1
    obtain ⟨p1, U1⟩ := steps_upto R b done pieces st _ U hnd1 hl1 hk
    rw [← heq] at U1
    exact ih _ p1 _ _ U1 hh' hnd (fun e he => hl e (List.mem_append_right _ he))

/-! ### From the shares to the boundaries of the faces -/

theorem shares_eq (ps : Mesh P) (pieces : Nat → List Nat) (e f : Nat) : shares (facesOf ps e) (pieces e) f =
    ([halfedgeOf e 0, halfedgeOf e 1].filter (fun h => decide (ps.face h = some f))).flatMap (fun h => pieces (edgeOf h)) := by
  have h0 : edgeOf (halfedgeOf e 0) = e := by unfold edgeOf halfedgeOf; omega
  have h1 : edgeOf (halfedgeOf e 1) = e := by unfold edgeOf halfedgeOf; omega
  unfold shares facesOf
  simp only [List.filter_cons, List.filter_nil]
  cases a : ps.face (halfedgeOf e 0) <;> cases b : ps.face (halfedgeOf e 1)
  · simp
  · rename_i y; by_cases hy : y = f <;> simp [hy, h1]
  · rename_i y; by_cases hy : y = f <;> simp [hy, h0]
  · rename_i x y; by_cases hx : x = f <;> by_cases hy : y = f <;> simp [hx, hy, h0, h1]

theorem faces_perm (hr : Reachable d ps) {f : Nat} (hf : LiveF ps f) {done : List Nat} (hnd : done.Nodup) (hmem : ∀ e, e ∈ done ↔ LiveE ps e) (pieces : Nat → List Nat) :
    (done.flatMap (fun e => shares (facesOf ps e) (pieces e) f)).Perm ((ps.fh f).flatMap (fun h => pieces (edgeOf h))) := by
  have W := reachable_wf hr
  have F : FaceOK ps f := W.face f hf (by have := hf.1; omega)
  rw [flatMap_congr' (fun e _ => shares_eq ps pieces e f), ← List.flatMap_assoc]
  refine List.Perm.flatMap_right _ ?_
  rw [List.perm_ext_iff_of_nodup]
  · intro h
    simp only [List.mem_flatMap, List.mem_filter, List.mem_cons, List.not_mem_nil, or_false, decide_eq_true_eq]
    constructor
    · rintro ⟨e, he, hh, hfa⟩
      have hl : LiveH ps h := by
        rw [W.liveH_iff]
        have : h / 2 = e := by rcases hh with rfl | rfl <;> (unfold halfedgeOf; omega)
        rw [this]; exact (hmem e).1 he
      rcases W.h_face h f hl hfa with ⟨h1, -⟩ | ⟨-, -, h1⟩
      · have := hf.1; omega
      · exact h1
    · intro hh
      obtain ⟨h1, h2⟩ := F.mem h hh
      refine ⟨h / 2, (hmem _).2 ((W.liveH_iff h).1 h1), ?_, h2⟩
      unfold halfedgeOf; omega
  · rw [List.nodup_flatMap]
    refine ⟨fun e _ => ?_, ?_⟩
    · refine List.Nodup.filter _ ?_
      simp [halfedgeOf]
    · refine hnd.imp ?_
      intro a b hab
      rw [Function.onFun, List.disjoint_left]
      intro h h1 h2
      simp only [List.mem_filter, List.mem_cons, List.not_mem_nil, or_false, halfedgeOf] at h1 h2
      omega
  · exact F.nd

theorem divided_of (R : Ready d ps base pts c) {edges done : List Nat} (hp : done.Perm edges) (hnd : edges.Nodup) (hmem : ∀ e, e ∈ edges ↔ LiveE ps e)
    {pieces : Nat → List Nat} {st : St P} (U : Upto d ps base pts sort c done pieces st) : Divided d ps base pts sort edges c st pieces := by
  have S := U.sound
  have hm : ∀ e, e ∈ done ↔ e ∈ edges := fun e => hp.mem_iff
  refine ⟨S.reach, ⟨S.nV, S.vRem, S.pos, S.nF⟩, ?_, ⟨?_, S.le, S.eRem⟩, fun e he => U.leads e ((hm e).2 he), ?_, ?_, ?_, U.others, S.incoming, S.noOthers⟩
  · intro e he
    refine ⟨⟨by have := S.le; omega, by rw [S.eRem]; simp⟩, ?_, ?_⟩
    · unfold Mesh.edgeVertex Mesh.target; rw [S.old _ (by omega)]
    · unfold Mesh.edgeVertex Mesh.target; rw [S.old _ (by omega)]
  · rw [← U.cover]; exact List.Perm.flatMap_right _ hp.symm
  · intro e he h1
    rw [U.chains, if_pos ⟨(hm e).2 he, h1⟩]
  · intro e he h0
    have hlen := (U.leads e ((hm e).2 he)).1
    have hal : (along ps pts sort e).length = 2 := by unfold along; rw [h0]; simp
    rw [hal] at hlen
    have h1 := U.plain e ((hm e).2 he) h0
    match hpe : pieces e with
    | [x] => exact ⟨x, rfl, by rw [h1, hpe]; rfl⟩
    | [] => rw [hpe] at hlen; simp at hlen
    | _ :: _ :: _ => rw [hpe] at hlen; simp at hlen
  · intro f hf hc
    refine (U.faces f hc).trans (List.Perm.append_left _ ?_)
    exact faces_perm R.psOk hf (hp.nodup_iff.2 hnd) (fun e => (hm e).trans (hmem e)) pieces

end Mcut.Boundary
