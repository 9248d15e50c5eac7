import Verif.Lemmas.C84Traced
import Verif.Lemmas.C83Main

/-! Lemmas for C84: the patches of one colour, as they are and reversed. -/
namespace Mcut.Patches
open Mcut.Hmesh Mcut.Extract Mcut.Registry Mcut.CutEdges Mcut.Boundary Mcut.Trace Mcut.Split Mcut.CutPaths
variable {P : Type} {d : P} {ps : Mesh P} {base : Nat} {pts : Nat → List Nat} {sort : Nat → Nat → List Nat → List Nat} {edges : List Nat} {c : CutEdges.St P} {st : Boundary.St P}
  {pieces : Nat → List Nat} {reg : List (Nat × Nat)} {smV smF n : Nat} {o : Out} {T : Nat → List Nat} {poly : Nat → List (List Nat)}
  {pats : List (List Nat)} {table starts : List (Nat × Nat)} {ord : List Nat} {two : Two} {news : List (List Nat)} {out : Nat → Prop}

/-- The patches of a colour `cl`, as they are and reversed. -/
structure Kinds (pats : List (List Nat)) (ord : List Nat) (two : Two) (news : List (List Nat)) (cl ks : List Nat) : Prop where
  nodup : ks.Nodup
  kind : ∀ k ∈ ks, (k ∈ cl ∧ ∃ l, pats[k]? = some l ∧ two.patches[k]? = some l) ∨
      ∃ a k0 l l', k = pats.length + a ∧ ord[a]? = some k0 ∧ k0 ∈ cl ∧ pats[k0]? = some l ∧ news[a]? = some l' ∧ two.patches[k]? = some l'
  asis : ∀ k ∈ cl, k ∈ ks
  rev : ∀ k0 ∈ cl, ∃ a, ord[a]? = some k0 ∧ pats.length + a ∈ ks

theorem kinds_of (D : Doubled o T pats table ord two news) (hnd : ord.Nodup) (hlt : ∀ k ∈ ord, k < pats.length)
    {cl : List Nat} {off : Nat} (hcl : ∀ i, i < cl.length → ord[off + i]? = cl[i]?) : Kinds pats ord two news cl (cl ++ oppositesOf (pats.length + off) cl) := by
  have hlenN := D.rev.length_eq
  have hord : ∀ i, i < cl.length → ∃ k, cl[i]? = some k ∧ ord[off + i]? = some k ∧ k ∈ cl ∧ k < pats.length ∧ off + i < ord.length := by
    intro i hi
    have h1 := hcl i hi
    rw [List.getElem?_eq_getElem hi] at h1
    exact ⟨cl[i], List.getElem?_eq_getElem hi, h1, List.getElem_mem _, hlt _ (List.mem_of_getElem? h1), (List.getElem?_eq_some_iff.1 h1).1⟩
  have hin : ∀ k ∈ cl, k < pats.length := by
    intro k hk
    obtain ⟨i, hi, rfl⟩ := List.getElem_of_mem hk
    obtain ⟨k', e, -, -, h, -⟩ := hord i hi
    rw [List.getElem?_eq_getElem hi] at e
    rw [Option.some.inj e]; exact h
  have clnd : cl.Nodup := by
    rw [List.nodup_iff_injective_getElem]
    intro a b hab
    have hab : cl[a.1] = cl[b.1] := hab
    obtain ⟨k, k1, k2, -, -, ka⟩ := hord a.1 a.2
    obtain ⟨k', k1', k2', -⟩ := hord b.1 b.2
    rw [List.getElem?_eq_getElem a.2] at k1
    rw [List.getElem?_eq_getElem b.2] at k1'
    have : k = k' := by rw [← Option.some.inj k1, ← Option.some.inj k1', hab]
    subst this
    have := (List.getElem?_inj ka hnd).1 (k2.trans k2'.symm)
    exact Fin.ext (by omega)
  refine ⟨?_, ?_, fun k hk => List.mem_append_left _ hk, ?_⟩
  · rw [List.nodup_append]
    refine ⟨clnd, List.nodup_range', ?_⟩
    intro a ha b hb hab
    unfold oppositesOf at hb
    obtain ⟨i, hi, rfl⟩ := List.mem_range'.1 hb
    have := hin a ha
    omega
  · intro k hk
    rcases List.mem_append.1 hk with hk | hk
    · left
      have := hin k hk
      exact ⟨hk, pats[k], List.getElem?_eq_getElem this, by rw [D.patches, List.getElem?_append_left this, List.getElem?_eq_getElem this]⟩
    · right
      unfold oppositesOf at hk
      obtain ⟨i, hi, rfl⟩ := List.mem_range'.1 hk
      obtain ⟨k0, -, k2, k3, k4, k5⟩ := hord i hi
      refine ⟨off + i, k0, pats[k0], news[off + i]'(by omega), by omega, k2, k3, List.getElem?_eq_getElem k4, List.getElem?_eq_getElem _, ?_⟩
      rw [D.patches, List.getElem?_append_right (by omega), show pats.length + off + 1 * i - pats.length = off + i by omega, List.getElem?_eq_getElem]
  · intro k0 hk
    obtain ⟨i, hi, rfl⟩ := List.getElem_of_mem hk
    obtain ⟨k', e1, e2, -, -, -⟩ := hord i hi
    rw [List.getElem?_eq_getElem hi] at e1
    rw [← e1] at e2
    refine ⟨off + i, e2, List.mem_append_right _ ?_⟩
    unfold oppositesOf
    rw [List.mem_range']
    exact ⟨i, hi, by omega⟩

section
variable (C : CutFacts d ps smV smF base pts sort edges c st pieces reg n o T poly)
include C

/-- The halfedges of the patches. -/
theorem CutFacts.inSheet_asis (PS : PatchesOf o.polygons o.smCount (2 * c.m0.nE) pats) (D : Doubled o T pats table ord two news) {k : Nat} {l : List Nat} (h1 : pats[k]? = some l)
    (h2 : two.patches[k]? = some l) (h : Nat) : Stitch.InSheet two.polys two.patches k h ↔ InPatch o l h := by
  rw [inSheet_iff (E := stitchEnv st base reg (fun _ => none) two o pats.length) (polys := two.polys) rfl k h, List.getD_eq_getElem?_getD, h2]
  exact C.of_asis PS D (List.mem_of_getElem? h1) h

theorem CutFacts.inSheet_rev (PS : PatchesOf o.polygons o.smCount (2 * c.m0.nE) pats) (D : Doubled o T pats table ord two news) {k a k0 : Nat} {l l' : List Nat} (h1 : ord[a]? = some k0)
    (h2 : pats[k0]? = some l) (h3 : news[a]? = some l') (h4 : two.patches[k]? = some l') (h : Nat) : Stitch.InSheet two.polys two.patches k h ↔ InPatch o l (opposite h) := by
  rw [inSheet_iff (E := stitchEnv st base reg (fun _ => none) two o pats.length) (polys := two.polys) rfl k h, List.getD_eq_getElem?_getD, h4]
  obtain ⟨l0, e0, R, -⟩ := D.at h1 h3
  rw [h2] at e0; obtain rfl := Option.some.inj e0
  exact C.of_rev PS (List.mem_of_getElem? h2) R h

/-- The patches of one colour, as they are and reversed: along each cut halfedge there is one of them. -/
theorem CutFacts.sheets (PS : PatchesOf o.polygons o.smCount (2 * c.m0.nE) pats) (D : Doubled o T pats table ord two news) {cl ks : List Nat} (K : Kinds pats ord two news cl ks)
    (tw : TwoSided o.polygons o.smCount (2 * c.m0.nE) out)
    (cover : ∀ k k' l l' i i', pats[k]? = some l → pats[k']? = some l' → i ∈ l → i' ∈ l' → ¬(out i ↔ out i') → k ∈ cl ∨ k' ∈ cl) : Stitch.Sheets st.m0 (2 * c.m0.nE) two.polys two.patches ks := by
  have hr := C.F.G.divided.valid
  have opp : ∀ {l l' : List Nat}, l ∈ pats → List.Forall₂ (fun j j' => ∃ p, o.polygons[j]? = some p ∧ two.polys[j']? = some (reversed p)) l l' → ∀ j' ∈ l',
      ∃ (b i : Nat) (p : List Nat), l'[b]? = some j' ∧ l[b]? = some i ∧ i ∈ l ∧ o.smCount ≤ i ∧ o.polygons[i]? = some p ∧ two.polys[j']? = some (reversed p) := by
    intro l l' hl R j' hj
    obtain ⟨b, hb, rfl⟩ := List.getElem_of_mem hj
    have hlen := R.length_eq
    obtain ⟨p, p1, p2⟩ := (List.forall₂_iff_get.1 R).2 b (by omega) hb
    have hm : l[b]'(by omega) ∈ l := List.getElem_mem _
    exact ⟨b, l[b]'(by omega), p, List.getElem?_eq_getElem hb, List.getElem?_eq_getElem _, hm, ((PS.whole l hl).2.1 _ hm).1, p1, p2⟩
  refine ⟨K.nodup, ?_, ?_, ?_, ?_, ?_, ?_⟩
  · intro k hk
    rcases K.kind k hk with ⟨-, l, h1, h2⟩ | ⟨a, k0, l, l', h0, h1, h2, h3, h4, h5⟩
    · exact ⟨l, h2, (PS.whole l (List.mem_of_getElem? h1)).1⟩
    · obtain ⟨l0, e0, R, nd, -⟩ := D.at h1 h4
      exact ⟨l', h5, nd⟩
  · intro k hk l'' hl'' j hj
    rcases K.kind k hk with ⟨-, l, h1, h2⟩ | ⟨a, k0, l, l', h0, h1, h2, h3, h4, h5⟩
    · rw [hl''] at h2
      obtain rfl := Option.some.inj h2
      obtain ⟨b1, b2⟩ := (PS.whole _ (List.mem_of_getElem? h1)).2.1 j hj
      obtain ⟨r1, -, r3, -⟩ := C.polyC b1 (List.getElem?_eq_getElem b2)
      exact ⟨_, by rw [D.polys j b2, List.getElem?_eq_getElem b2], r1, C.simple j _ b1 (List.getElem?_eq_getElem b2), r3⟩
    · rw [hl''] at h5
      obtain rfl := Option.some.inj h5
      obtain ⟨l0, e0, R, -⟩ := D.at h1 h4
      rw [h3] at e0; obtain rfl := Option.some.inj e0
      obtain ⟨b, i, p, -, -, -, b1, b2, b3⟩ := opp (List.mem_of_getElem? h3) R j hj
      obtain ⟨r1, -, r3, -⟩ := C.polyC b1 b2
      refine ⟨_, b3, reversed_round hr r1 r3, ?_, ?_⟩
      · rw [(reversed_corners hr r1 r3).nodup_iff, List.nodup_reverse]
        exact C.simple i p b1 b2
      · intro h hh
        have := (src_of hr (r3 _ (mem_reversed.1 hh))).2.2.2.2
        rwa [Stitch.opp_back] at this
  · intro k hk l'' hl'' i hi j hj p q h hp hq hh hh'
    rcases K.kind k hk with ⟨-, l, h1, h2⟩ | ⟨a, k0, l, l', h0, h1, h2, h3, h4, h5⟩
    · rw [hl''] at h2
      obtain rfl := Option.some.inj h2
      have w := (PS.whole _ (List.mem_of_getElem? h1)).2.1
      rw [D.polys i (w i hi).2] at hp
      rw [D.polys j (w j hj).2] at hq
      exact C.unique (x := h) ⟨(w i hi).1, p, hp, hh⟩ ⟨(w j hj).1, q, hq, hh'⟩
    · rw [hl''] at h5
      obtain rfl := Option.some.inj h5
      obtain ⟨l0, e0, R, nd, -⟩ := D.at h1 h4
      rw [h3] at e0; obtain rfl := Option.some.inj e0
      obtain ⟨b, i', p', b0, bi, -, b1, b2, b3⟩ := opp (List.mem_of_getElem? h3) R i hi
      obtain ⟨b', j', q', b0', bj, -, b1', b2', b3'⟩ := opp (List.mem_of_getElem? h3) R j hj
      rw [hp] at b3; obtain rfl := Option.some.inj b3
      rw [hq] at b3'; obtain rfl := Option.some.inj b3'
      have e := C.unique (x := opposite h) ⟨b1, p', b2, mem_reversed.1 hh⟩ ⟨b1', q', b2', mem_reversed.1 hh'⟩
      subst e
      have : b = b' := (List.getElem?_inj (List.getElem?_eq_some_iff.1 bi).1 (PS.whole _ (List.mem_of_getElem? h3)).1).1 (bi.trans bj.symm)
      subst this
      rw [b0] at b0'
      exact Option.some.inj b0'
  · intro k hk l'' hl''
    rcases K.kind k hk with ⟨-, l, h1, h2⟩ | ⟨a, k0, l, l', h0, h1, h2, h3, h4, h5⟩
    · rw [hl''] at h2
      obtain rfl := Option.some.inj h2
      exact C.joined_asis (base := base) (reg := reg) (ihe := fun _ => none) PS D (List.mem_of_getElem? h1)
    · rw [hl''] at h5
      obtain rfl := Option.some.inj h5
      exact C.joined_rev (base := base) (reg := reg) (ihe := fun _ => none) PS D h1 h3 h4
  · intro k hk
    rcases K.kind k hk with ⟨-, l, h1, h2⟩ | ⟨a, k0, l, l', h0, h1, h2, h3, h4, h5⟩
    · obtain ⟨i, il, x, x1, x2⟩ := PS.cut l (List.mem_of_getElem? h1)
      exact ⟨x, (C.inSheet_asis PS D h1 h2 x).2 ⟨i, il, x1⟩, x2⟩
    · obtain ⟨i, il, x, x1, x2⟩ := PS.cut l (List.mem_of_getElem? h3)
      refine ⟨opposite x, (C.inSheet_rev PS D h1 h3 h4 h5 _).2 ⟨i, il, ?_⟩, ?_⟩
      · rw [Stitch.opp_back]; exact x1
      · rw [cut_lt] at x2 ⊢
        rw [Stitch.edge_opp']; exact x2
  · intro h hh
    have he := cut_lt.1 hh
    obtain ⟨i, hi⟩ := C.exists he
    obtain ⟨i', hi'⟩ := C.exists (x := opposite h) (by rw [Stitch.edge_opp']; exact he)
    have t := tw.turns i i' ⟨h, hi, hi', hh⟩
    obtain ⟨l, hl, il⟩ := PS.every i ⟨h, hi, hh⟩
    obtain ⟨l', hl', il'⟩ := PS.every i' ⟨opposite h, hi', by rw [cut_lt, Stitch.edge_opp']; exact he⟩
    obtain ⟨k, kl⟩ := List.getElem?_of_mem hl
    obtain ⟨k', kl'⟩ := List.getElem?_of_mem hl'
    rcases cover k k' l l' i i' kl kl' il il' (by tauto) with hk | hk
    · rcases K.kind k (K.asis k hk) with ⟨-, l0, h1, h2⟩ | ⟨a, k0, l0, l0', h0, -⟩
      · rw [kl] at h1; obtain rfl := Option.some.inj h1
        exact ⟨k, K.asis k hk, (C.inSheet_asis PS D kl h2 h).2 ⟨i, il, hi⟩⟩
      · have := (List.getElem?_eq_some_iff.1 kl).1; omega
    · obtain ⟨a, ha, hm⟩ := K.rev k' hk
      rcases K.kind _ hm with ⟨-, l0, h1, h2⟩ | ⟨a', k0, l0, l0', h0, h1, -, h2, h3, h4⟩
      · have := (List.getElem?_eq_some_iff.1 h1).1; omega
      · have : a = a' := by omega
        subst this
        rw [ha] at h1; obtain rfl := Option.some.inj h1
        rw [kl'] at h2; obtain rfl := Option.some.inj h2
        exact ⟨_, hm, (C.inSheet_rev PS D ha kl' h3 h4 h).2 ⟨i', il', hi'⟩⟩

/-- If the cut mesh has no border, a patch goes on at every edge that is not on the cut. -/
theorem CutFacts.sheets_closed (PS : PatchesOf o.polygons o.smCount (2 * c.m0.nE) pats) (D : Doubled o T pats table ord two news) {cl ks : List Nat} (K : Kinds pats ord two news cl ks)
    (closed : ∀ h f, ps.face h = some f → smF ≤ f → LiveH ps h → ps.face (opposite h) ≠ none) {k h : Nat} (hk : k ∈ ks) (hh : Stitch.InSheet two.polys two.patches k h) (hn : 2 * c.m0.nE ≤ h) :
    Stitch.InSheet two.polys two.patches k (opposite h) := by
  have key : ∀ {l : List Nat} {x : Nat}, l ∈ pats → 2 * c.m0.nE ≤ x → InPatch o l x → InPatch o l (opposite x) := by
    rintro l x hl hx ⟨i, il, hi⟩
    have hx' : c.m0.nE ≤ edgeOf x := by unfold edgeOf; omega
    obtain ⟨g, f, p1, p2, p3, p4, p5, -⟩ := C.part hi hx'
    have hop := part_opposite C.F.G.ready.psOk C.F.G.divided.valid p1
    rcases C.oppUsers hi hx' with h0 | ⟨j, -, hj⟩
    · exfalso
      cases hg : ps.face (opposite g) with
      | none => exact closed g f p2 p3 p1.1 hg
      | some f' =>
        obtain ⟨j', e1, -⟩ := C.F.used.side _ _ f' hop hg
        rw [h0] at e1; cases e1
    · exact ⟨j, ((PS.whole l hl).2.2 i il j).2 (.rel _ _ ⟨x, hi, hj, hx⟩), hj⟩
  have hn' : 2 * c.m0.nE ≤ opposite h := by
    have e : edgeOf (opposite h) = edgeOf h := Stitch.edge_opp' h
    unfold edgeOf at e
    omega
  rcases K.kind k hk with ⟨-, l, h1, h2⟩ | ⟨a, k0, l, l', h0, h1, h2, h3, h4, h5⟩
  · rw [C.inSheet_asis PS D h1 h2] at hh ⊢
    exact key (List.mem_of_getElem? h1) hn hh
  · rw [C.inSheet_rev PS D h1 h3 h4 h5] at hh ⊢
    exact key (List.mem_of_getElem? h3) hn' hh

/-- If the source mesh has no border, its polygons go on at every edge that is not on the cut. -/
theorem CutFacts.source_closed (closed : ∀ h f, ps.face h = some f → f < smF → LiveH ps h → ps.face (opposite h) ≠ none) {h : Nat} (hh : In (o.polygons.take o.smCount) h) (hn : 2 * c.m0.nE ≤ h) :
    In (o.polygons.take o.smCount) (opposite h) := by
  have hn' : c.m0.nE ≤ edgeOf h := by unfold edgeOf; omega
  obtain ⟨p, hp, hx⟩ := hh
  obtain ⟨f, f1, f2, f3⟩ := C.faceS hp
  obtain ⟨g, p1, p2, p3⟩ := C.partS f2 f3 hx hn'
  have hop := part_opposite C.F.G.ready.psOk C.F.G.divided.valid p1
  cases hg : ps.face (opposite g) with
  | none => exact absurd hg (closed g f p2 f1 p1.1)
  | some f' =>
    obtain ⟨j', e1, e2⟩ := C.F.used.side _ _ f' hop hg
    have hj : j' ∈ T (opposite h) := by rw [e1]; exact List.mem_singleton_self _
    obtain ⟨q, q1, q2⟩ := ((C.F.used.table _).2 j').1 hj
    have lt : j' < o.smCount := by
      by_contra hge
      have := (C.index e2).1 (by omega)
      have := (C.other p1.1 p2 hg).2 this
      omega
    refine ⟨q, ?_, q2⟩
    rw [List.mem_iff_getElem?]
    exact ⟨j', by rw [List.getElem?_take_of_lt lt]; exact q1⟩

end
end Mcut.Patches
