import Verif.Lemmas.C83Spec

/-! Lemmas for C83: the patches of one colour. -/
namespace Mcut.Patches
open Mcut.Hmesh Mcut.Extract Mcut.Registry Mcut.CutEdges Mcut.Boundary Mcut.Trace Mcut.Split Mcut.CutPaths
variable {P : Type} {d : P} {ps : Mesh P} {base : Nat} {pts : Nat → List Nat} {sort : Nat → Nat → List Nat → List Nat} {edges : List Nat} {c : CutEdges.St P} {st : Boundary.St P}
  {pieces : Nat → List Nat} {reg : List (Nat × Nat)} {smV smF n : Nat} {o : Out} {T : Nat → List Nat} {poly : Nat → List (List Nat)}

theorem Doubled.withReversed {pats : List (List Nat)} {table : List (Nat × Nat)} {ks : List Nat} {two : Two} {news : List (List Nat)} (D : Doubled o T pats table ks two news) :
    Stitch.WithReversed o.polygons pats ks two.polys two.patches :=
  ⟨D.polys, news, D.patches, D.rev.imp (fun _ _ ⟨l, h1, h2, _⟩ => ⟨l, h1, h2⟩)⟩

section
variable (C : CutFacts d ps smV smF base pts sort edges c st pieces reg n o T poly) {m1 : Mesh P} {polys1 : List (List Nat)} {ver orig : Nat → Nat} {ihe : Nat → Option Nat}
  {pats : List (List Nat)} {table starts : List (Nat × Nat)} {ord : List Nat} {two : Two} {news : List (List Nat)} {out : Nat → Prop}
include C

/-- The source of a halfedge of a polygon of the cut mesh. -/
theorem CutFacts.low' (hle : smV ≤ base) {i x : Nat} (hi : InCut o.polygons o.smCount i x) : smV ≤ st.m0.target x ∧ smV ≤ src st.m0 x := by
  obtain ⟨h1, p, hp, hx⟩ := hi
  refine ⟨C.low hle h1 hp hx, ?_⟩
  obtain ⟨R, -⟩ := C.polyC h1 hp
  obtain ⟨w, w1, w2⟩ := follows_prev R.cyclic hx
  rw [← w2]
  exact C.low hle h1 hp w1.mem.1

/-- The patches of one side, as they are and reversed, are stitched to the fragments. -/
theorem CutFacts.colour (hle : smV ≤ base) (cutOne : OneCut c) (simple : SimpleSource st.m0 o)
    (V : SplitOf d st.m0 base (2 * c.m0.nE) (o.polygons.take o.smCount) m1 polys1 ver orig) (single : Stitch.Single m1)
    (hihe : ∀ h, edgeOf h < c.m0.nE → ihe h = some (ver h)) (PS : PatchesOf o.polygons o.smCount (2 * c.m0.nE) pats) (TS : TableOf pats table) (ST : StartsOf o.polygons (2 * c.m0.nE) pats starts)
    (tw : TwoSided o.polygons o.smCount (2 * c.m0.nE) out) (D : Doubled o T pats table ord two news) (hnd : ord.Nodup) (hlt : ∀ k ∈ ord, k < pats.length)
    {all : List (Nat × Nat)} (hall : Stitch.allStarts two o.polygons.length starts = some all)
    {cl : List Nat} {off : Nat} (hcl : ∀ i, i < cl.length → ord[off + i]? = cl[i]?) (side : ∀ k ∈ cl, ∀ k' ∈ cl, ∀ l l' i i', pats[k]? = some l → pats[k']? = some l' → i ∈ l → i' ∈ l' → (out i ↔ out i')) :
    ∃ s at' half made, Stitch.stitchColour (stitchEnv st base reg ihe two o pats.length) all m1 polys1 (cl ++ oppositesOf (pats.length + off) cl) = some s ∧
      Stitch.StitchedOf d st.m0 base (2 * c.m0.nE) pats.length (o.polygons.take o.smCount) two.polys two.patches (cl ++ oppositesOf (pats.length + off) cl) m1 polys1 ver orig s.m s.polys s.faces s.cmv at' half made := by
  have hlenN := D.rev.length_eq
  have p1 : Plain d m1 := ⟨V.mesh.1, V.mesh.2.2.1, V.mesh.2.2.2.1, V.mesh.2.1, V.mesh.2.2.2.2⟩
  have hord : ∀ i, i < cl.length → ∃ k, cl[i]? = some k ∧ ord[off + i]? = some k ∧ k ∈ cl ∧ k < pats.length ∧ off + i < ord.length := by
    intro i hi
    have h1 := hcl i hi
    rw [List.getElem?_eq_getElem hi] at h1
    exact ⟨cl[i], List.getElem?_eq_getElem hi, h1, List.getElem_mem _, hlt _ (List.mem_of_getElem? h1), (List.getElem?_eq_some_iff.1 h1).1⟩
  have hin : ∀ k ∈ cl, k < pats.length := by
    intro k hk
    obtain ⟨i, hi, rfl⟩ := List.getElem_of_mem hk
    obtain ⟨k', e, -, -, h, -⟩ := hord i hi
    rw [List.getElem?_eq_getElem hi] at e
    rw [Option.some.inj e]; exact h
  have clnd : cl.Nodup := by
    rw [List.nodup_iff_injective_getElem]
    intro a b hab
    have hab : cl[a.1] = cl[b.1] := hab
    obtain ⟨k, k1, k2, -, -, ka⟩ := hord a.1 a.2
    obtain ⟨k', k1', k2', -⟩ := hord b.1 b.2
    rw [List.getElem?_eq_getElem a.2] at k1
    rw [List.getElem?_eq_getElem b.2] at k1'
    have : k = k' := by rw [← Option.some.inj k1, ← Option.some.inj k1', hab]
    subst this
    have := (List.getElem?_inj ka hnd).1 (k2.trans k2'.symm)
    exact Fin.ext (by omega)
  -- the kinds of patches
  have kinds : ∀ k ∈ cl ++ oppositesOf (pats.length + off) cl, (k ∈ cl ∧ k < pats.length ∧ ∃ l, pats[k]? = some l ∧ two.patches.getD k [] = l) ∨
      ∃ a k0 l l', k = pats.length + a ∧ ord[a]? = some k0 ∧ k0 ∈ cl ∧ pats[k0]? = some l ∧ news[a]? = some l' ∧ a < ord.length ∧ two.patches.getD k [] = l' := by
    intro k hk
    rcases List.mem_append.1 hk with hk | hk
    · left
      have := hin k hk
      refine ⟨hk, this, pats[k], List.getElem?_eq_getElem this, ?_⟩
      rw [D.patches, List.getD_eq_getElem?_getD, List.getElem?_append_left this, List.getElem?_eq_getElem this]; rfl
    · right
      unfold oppositesOf at hk
      obtain ⟨i, hi, rfl⟩ := List.mem_range'.1 hk
      obtain ⟨k0, -, k2, k3, k4, k5⟩ := hord i hi
      refine ⟨off + i, k0, pats[k0], news[off + i]'(by omega), by omega, k2, k3, List.getElem?_eq_getElem k4, List.getElem?_eq_getElem _, k5, ?_⟩
      rw [D.patches, List.getD_eq_getElem?_getD, List.getElem?_append_right (by omega), show pats.length + off + 1 * i - pats.length = off + i by omega, List.getElem?_eq_getElem]; rfl
  obtain ⟨all', ha', B1, B2⟩ := C.starts (st := st) (base := base) (reg := reg) (ihe := ihe) PS D hnd hlt ST
  rw [hall] at ha'
  obtain rfl := Option.some.inj ha'
  have ksnd : (cl ++ oppositesOf (pats.length + off) cl).Nodup := by
    rw [List.nodup_append]
    refine ⟨clnd, List.nodup_range', ?_⟩
    intro a ha b hb hab
    unfold oppositesOf at hb
    obtain ⟨i, hi, rfl⟩ := List.mem_range'.1 hb
    have := hin a ha
    omega
  -- the halfedges of a patch
  have of : ∀ k h, Stitch.InSheet two.polys two.patches k h ↔ Stitch.Of (stitchEnv st base reg ihe two o pats.length) (two.patches.getD k []) h := fun k h => inSheet_iff (E := stitchEnv st base reg ihe two o pats.length) (polys := two.polys) (pats := two.patches) rfl k h
  have asis : ∀ (k : Nat) (l : List Nat), pats[k]? = some l → two.patches.getD k [] = l → ∀ h, Stitch.Of (stitchEnv st base reg ihe two o pats.length) (two.patches.getD k []) h ↔ InPatch o l h := by
    intro k l hl e h
    rw [e]
    exact C.of_asis PS D (List.mem_of_getElem? hl) h
  have rev : ∀ (a k0 : Nat) (l l' : List Nat), ord[a]? = some k0 → pats[k0]? = some l → news[a]? = some l' → ∀ h, Stitch.Of (stitchEnv st base reg ihe two o pats.length) l' h ↔ InPatch o l (opposite h) := by
    intro a k0 l l' ha hl hl' h
    obtain ⟨l0, e0, R, -⟩ := D.at ha hl'
    rw [hl] at e0; obtain rfl := Option.some.inj e0
    exact C.of_rev PS (List.mem_of_getElem? hl) R h
  have hos : ∀ k ∈ cl ++ oppositesOf (pats.length + off) cl, OneSide st.m0 base c.m0.nE (Stitch.Of (stitchEnv st base reg ihe two o pats.length) (two.patches.getD k [])) := by
    intro k hk
    rcases kinds k hk with ⟨-, -, l, h1, h2⟩ | ⟨a, k0, l, l', -, h1, -, h2, h3, -, h4⟩
    · rw [show Stitch.Of (stitchEnv st base reg ihe two o pats.length) (two.patches.getD k []) = InPatch o l from funext (fun h => propext (asis k l h1 h2 h))]
      exact C.oneSide PS tw (List.mem_of_getElem? h1)
    · rw [h4, show Stitch.Of (stitchEnv st base reg ihe two o pats.length) l' = (fun h => InPatch o l (opposite h)) from funext (fun h => propext (rev a k0 l l' h1 h2 h3 h))]
      exact (C.oneSide PS tw (List.mem_of_getElem? h2)).flip C.F.G.divided.valid
  have hsheet : ∀ k ∈ cl ++ oppositesOf (pats.length + off) cl, Stitch.Sheet d (stitchEnv st base reg ihe two o pats.length) m1 k (2 * c.m0.nE) (two.patches.getD k [])
      (gate st.m0 m1 c.m0.nE ver (Stitch.Of (stitchEnv st base reg ihe two o pats.length) (two.patches.getD k []))) := by
    intro k hk
    rcases kinds k hk with ⟨-, -, l, h1, h2⟩ | ⟨a, k0, l, l', h0, h1, -, h2, h3, -, h4⟩
    · rw [show Stitch.Of (stitchEnv st base reg ihe two o pats.length) (two.patches.getD k []) = InPatch o l from funext (fun h => propext (asis k l h1 h2 h)), h2]
      exact C.sheet_asis simple V hihe PS TS tw D h1
    · rw [h4, show Stitch.Of (stitchEnv st base reg ihe two o pats.length) l' = (fun h => InPatch o l (opposite h)) from funext (fun h => propext (rev a k0 l l' h1 h2 h3 h)), h0]
      exact C.sheet_rev simple V hihe PS tw D hnd h1 h2 h3
  obtain ⟨s, pl, work, hs, W⟩ := Stitch.stitched_of (sheet := fun k => two.patches.getD k [])
    (X := fun k => gate st.m0 m1 c.m0.nE ver (Stitch.Of (stitchEnv st base reg ihe two o pats.length) (two.patches.getD k []))) (polys1 := polys1) (starts := all) p1 single (cl ++ oppositesOf (pats.length + off) cl) ksnd (by
      intro k hk
      refine ⟨hsheet k hk, ?_⟩
      rcases kinds k hk with ⟨-, -, l, h1, h2⟩ | ⟨a, k0, l, l', h0, h1, -, h2, h3, h5, h4⟩
      · simp only [h2]
        exact ⟨C.joined_asis PS D (List.mem_of_getElem? h1), B1 k l h1⟩
      · subst h0
        simp only [h4]
        exact ⟨C.joined_rev PS D h1 h2 h3, B2 a l' h5 h3⟩)
  have ex : ∀ k ∈ cl ++ oppositesOf (pats.length + off) cl, ∀ h, Stitch.InSheet two.polys two.patches k h → (k ∈ cl ∧ k < pats.length ∧ ∃ l i, pats[k]? = some l ∧ i ∈ l ∧ InCut o.polygons o.smCount i h) ∨
      ∃ a k0 l i, k = pats.length + a ∧ ord[a]? = some k0 ∧ k0 ∈ cl ∧ a < ord.length ∧ pats[k0]? = some l ∧ i ∈ l ∧ InCut o.polygons o.smCount i (opposite h) := by
    intro k hk h hh
    rw [of] at hh
    rcases kinds k hk with ⟨q1, q2, l, h1, h2⟩ | ⟨a, k0, l, l', h0, h1, h6, h2, h3, h5, h4⟩
    · obtain ⟨i, il, hi⟩ := (asis k l h1 h2 h).1 hh
      exact .inl ⟨q1, q2, l, i, h1, il, hi⟩
    · rw [h4] at hh
      obtain ⟨i, il, hi⟩ := (rev a k0 l l' h1 h2 h3 h).1 hh
      exact .inr ⟨a, k0, l, i, h0, h1, h6, h5, h2, il, hi⟩
  obtain ⟨at', half, R⟩ := C.stitchedOf hle cutOne simple V hihe (nn := pats.length) (ks := cl ++ oppositesOf (pats.length + off) cl) (by
      intro k hk
      rcases kinds k hk with ⟨-, h, -⟩ | ⟨a, k0, l, l', h0, h1, -, h2, -⟩
      · simp only [Nat.mod_eq_of_lt h, h]
      · have h3 : 0 < pats.length := by have := (List.getElem?_eq_some_iff.1 h2).1; omega
        have := Nat.mod_lt k h3
        omega) hsheet hos (by
      intro k hk k' hk' h hc hh hh'
      rcases ex k hk h hh with ⟨q1, q2, l, i, q3, q4, q5⟩ | ⟨a, k0, l, i, q0, q1, q2, q3, q4, q5, q6⟩ <;>
        rcases ex k' hk' h hh' with ⟨r1, r2, l', i', r3, r4, r5⟩ | ⟨a', k0', l', i', r0, r1, r2, r3, r4, r5, r6⟩
      · have := C.unique q5 r5
        subst this
        exact patch_unique PS q3 r3 q4 r4
      · exfalso
        have t := tw.turns i i' ⟨h, q5, r6, cut_lt.2 hc⟩
        have := side k q1 k0' r2 l l' i i' q3 r4 q4 r5
        tauto
      · exfalso
        have t := tw.turns i' i ⟨h, r5, q6, cut_lt.2 hc⟩
        have := side k0 q2 k' r1 l l' i i' q4 r3 q5 r4
        tauto
      · have := C.unique q6 r6
        subst this
        have := patch_unique PS q4 r4 q5 r5
        subst this
        have := (List.getElem?_inj q3 hnd).1 (q1.trans r1.symm)
        omega) (by
      intro k hk k' hk' hkn hkn' h h' hc hh hh' e
      rcases ex k hk h hh with ⟨q1, q2, l, i, q3, q4, q5⟩ | ⟨a, k0, l, i, q0, -⟩
      · rcases ex k' hk' h' hh' with ⟨r1, r2, l', i', r3, r4, r5⟩ | ⟨a', k0', l', i', r0, -⟩
        · rcases e with rfl | rfl
          · have := C.unique q5 r5
            subst this
            exact patch_unique PS q3 r3 q4 r4
          · have hil : i' ∈ l := ((PS.whole l (List.mem_of_getElem? q3)).2.2 i q4 i').2 (.rel _ _ ⟨h, q5, r5, by unfold edgeOf at hc; omega⟩)
            exact patch_unique PS q3 r3 hil r4
        · omega
      · omega) (by
      intro k hk h hh
      rcases ex k hk h hh with ⟨q1, q2, l, i, q3, q4, q5⟩ | ⟨a, k0, l, i, q0, q1, q2, q3, q4, q5, q6⟩
      · exact C.low' hle q5
      · have hl : LiveH st.m0 h := (hos k hk).live h ((of k h).1 hh)
        have so := src_of C.F.G.divided.valid hl
        have := C.low' hle q6
        rw [so.2.2.1, ← so.1] at this
        exact ⟨this.2, this.1⟩) W
  exact ⟨s, at', half, work, hs, R⟩

end
end Mcut.Patches
