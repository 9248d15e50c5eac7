import Verif.Props.C73
import Verif.Props.C60
import Verif.Spec.C74

/-! Lemmas for C74. -/
namespace Mcut.Trace
open Mcut.Hmesh Mcut.Registry Mcut.CutEdges Mcut.Boundary Mcut.Extract
variable {P : Type} {d : P} {ps : Mesh P} {base : Nat} {pts : Nat → List Nat} {sort : Nat → Nat → List Nat → List Nat} {edges : List Nat} {c : CutEdges.St P} {st : Boundary.St P}
  {pieces : Nat → List Nat} {reg : List (Nat × Nat)}

/-- A polygon is a closed walk. -/
structure Round (m : Mesh P) (p : List Nat) : Prop where
  three : 3 ≤ p.length
  chain : p.IsChain (fun a b => m.target a = src m b)
  back : ∀ a b, p.head? = some a → p.getLast? = some b → m.target b = src m a

theorem walk_round {m : Mesh P} (all : List Nat) (k first : Nat) : ∀ (n cur : Nat) (child todo : List Nat), (child ++ [cur]).IsChain (fun a b => m.target a = src m b) →
    (child ++ [cur]).head? = some first → (walk m all k first n cur child todo).1 = true → Round m (walk m all k first n cur child todo).2.1 := by
  intro n
  induction n with
  | zero =>
    intro cur child todo hc hh h
    unfold walk at h ⊢
    by_cases hcl : closes m all k first cur (child ++ [cur]) (todo.erase cur) = true
    · simp only [hcl, if_true] at h ⊢
      unfold closes at hcl
      simp only [Bool.and_eq_true, decide_eq_true_eq] at hcl
      refine ⟨hcl.1.1, hc, ?_⟩
      intro a b ha hb
      rw [hh] at ha; injection ha with ha; subst ha
      rw [List.getLast?_concat] at hb; injection hb with hb; subst hb
      exact hcl.1.2.symm
    · simp only [hcl, if_false] at h
      cases h
  | succ n ih =>
    intro cur child todo hc hh h
    unfold walk at h ⊢
    by_cases hcl : closes m all k first cur (child ++ [cur]) (todo.erase cur) = true
    · simp only [hcl, if_true] at h ⊢
      unfold closes at hcl
      simp only [Bool.and_eq_true, decide_eq_true_eq] at hcl
      refine ⟨hcl.1.1, hc, ?_⟩
      intro a b ha hb
      rw [hh] at ha; injection ha with ha; subst ha
      rw [List.getLast?_concat] at hb; injection hb with hb; subst hb
      exact hcl.1.2.symm
    · simp only [hcl, if_false] at h ⊢
      cases hp : pick m all k cur (todo.erase cur) with
      | none => simp only [hp] at h; cases h
      | some g =>
        simp only [hp] at h ⊢
        refine ih g _ _ ?_ ?_ h
        · rw [List.isChain_append]
          refine ⟨hc, by simp, ?_⟩
          intro x hx y hy
          rw [List.getLast?_concat] at hx
          simp only [Option.mem_def, Option.some.injEq, List.head?_cons] at hx hy
          subst hx; subst hy
          have : g ∈ candidates m (m.target cur) (todo.erase cur) := by
            unfold pick at hp
            simp only at hp
            split at hp
            · split at hp
              · exact List.mem_of_getLast? hp
              · split at hp
                · exact List.mem_of_getLast? hp
                · exact List.mem_of_head? hp
            · exact List.mem_of_head? hp
          exact (mem_candidates.1 this).2.symm
        · rw [List.head?_append, hh]; rfl

theorem polygonsOf_round {m : Mesh P} (all : List Nat) (k : Nat) : ∀ (n : Nat) (todo : List Nat), ∀ p ∈ polygonsOf m all k n todo, Round m p := by
  intro n
  induction n with
  | zero => intro todo p hp; unfold polygonsOf at hp; cases hp
  | succ n ih =>
    intro todo p hp
    cases todo with
    | nil => unfold polygonsOf at hp; cases hp
    | cons h todo =>
      unfold polygonsOf at hp
      simp only at hp
      split at hp
      · rename_i hw
        rcases List.mem_cons.1 hp with rfl | hp
        · exact walk_round all k h _ _ _ _ (by simp) (by simp) hw
        · exact ih _ p hp
      · exact ih _ p hp

/-- What the polygons of one face are made of. -/
structure FaceSub (ps : Mesh P) (pts : Nat → List Nat) (sort : Nat → Nat → List Nat → List Nat) (pieces : Nat → List Nat) (c : CutEdges.St P) (m0 : Mesh P) (f : Nat) (l : List (List Nat)) : Prop where
  nodup : l.flatten.Nodup
  live : ∀ x ∈ l.flatten, LiveH m0 x
  kind : ∀ x ∈ l.flatten, x ∈ outline ps m0 pts sort pieces f ∨ edgeOf x ∈ c.faceEdges f
  round : ∀ p ∈ l, Round m0 p

theorem Given.sub (G : Given d ps base pts sort edges c st pieces reg) {part : (Nat → Bool) → List Nat → List Nat × List Nat} (hp : IsPartition part) {f : Nat} (hf : LiveF ps f)
    {l : List (List Nat)} (h : facePolygons ps st base reg part f = some l) : FaceSub ps pts sort pieces c st.m0 f l := by
  unfold facePolygons at h
  by_cases hc : c.faceEdges f = []
  · have : ¬ Boundary.entry st f = true := fun h => (G.entry_iff hf).1 h hc
    rw [if_neg this] at h
    obtain ⟨p, p1, p2⟩ := G.copied hf hc
    rw [p1] at h
    simp only [Option.map_some, Option.some.injEq] at h
    subst h
    have hpo := G.copy_eq hf hc p2
    have R := G.ring hf
    subst hpo
    refine ⟨?_, ?_, ?_, ?_⟩
    · rw [List.flatten_singleton]; exact List.Nodup.of_map _ (G.edges_nodup hf)
    · rw [List.flatten_singleton]; exact fun x hx => (G.outline_new hf hx).1
    · rw [List.flatten_singleton]; exact fun x hx => .inl hx
    · intro q hq
      rw [List.mem_singleton] at hq
      subst hq
      have hlen : 3 ≤ (outline ps st.m0 pts sort pieces f).length := by
        have := congrArg List.length p2.sources
        simp only [List.length_map] at this
        rw [this]
        exact ((reachable_wf G.ready.psOk).face f hf (Nat.ne_of_lt hf.1)).len
      refine ⟨hlen, R.chain, ?_⟩
      intro a b ha hb
      have hb' : (outline ps st.m0 pts sort pieces f)[(outline ps st.m0 pts sort pieces f).length - 1]? = some b := by rw [← hb, List.getLast?_eq_getElem?]
      obtain ⟨g, g1, g2⟩ := R.next hb'
      rw [show (outline ps st.m0 pts sort pieces f).length - 1 + 1 = (outline ps st.m0 pts sort pieces f).length by omega, Nat.mod_self, ← List.head?_eq_getElem?, ha] at g1
      injection g1 with g1
      rw [g2, g1]
  · rw [if_pos ((G.entry_iff hf).2 hc)] at h
    unfold cutFace at h
    cases hz : halfedgesOf ps st base reg part f with
    | none => rw [hz] at h; cases h
    | some r =>
      obtain ⟨all, k⟩ := r
      rw [hz] at h
      simp only [Option.map_some, Option.some.injEq] at h
      subst h
      obtain ⟨E, I, rfl, rfl, h1, h2, -⟩ := G.face hp hf hc hz
      have hIm : ∀ h, h ∈ I ↔ edgeOf h ∈ c.faceEdges f := fun h => by rw [h2.mem_iff, mem_both]
      have hEm : ∀ h, h ∈ E ↔ h ∈ outline ps st.m0 pts sort pieces f := fun h => h1.perm.mem_iff
      have hEI : (E ++ I).Nodup := by
        have L := G.laid hf h1 (List.Perm.refl _)
        exact (List.Perm.append_left E h2).nodup_iff.2 L.nd
      have hsub := polygonsOf_sub (m := st.m0) (E ++ I) E.length (E ++ I).length (E ++ I)
      have hmem : ∀ x ∈ (polygonsOf st.m0 (E ++ I) E.length (E ++ I).length (E ++ I)).flatten, x ∈ E ∨ x ∈ I := fun x hx => List.mem_append.1 (hsub.subset hx)
      refine ⟨?_, ?_, ?_, polygonsOf_round _ _ _ _⟩
      · obtain ⟨l', hp', hs'⟩ := hsub
        exact hp'.nodup_iff.1 (hs'.nodup hEI)
      · intro x hx
        rcases hmem x hx with h | h
        · exact (G.outline_new hf ((hEm x).1 h)).1
        · exact ((reachable_wf G.divided.valid).liveH_iff x).2 (G.cut_kept ((hIm x).1 h)).1
      · intro x hx
        rcases hmem x hx with h | h
        · exact .inl ((hEm x).1 h)
        · exact .inr ((hIm x).1 h)

/-! ### Halfedges are given by their ends -/

/-- An edge of the tables. -/
def Proper (ps : Mesh P) (pts : Nat → List Nat) (sort : Nat → Nat → List Nat → List Nat) (pieces : Nat → List Nat) (c : CutEdges.St P) (m0 : Mesh P) (x : Nat) : Prop :=
  ∃ f, LiveF ps f ∧ (x ∈ outline ps m0 pts sort pieces f ∨ edgeOf x ∈ c.faceEdges f)

theorem boundary_symm {m : Mesh P} (hr : Reachable d m) {x y : Nat} (hx : LiveH m x) (hy : LiveH m y) (hs : src m x = src m y) (ht : m.target x = m.target y) :
    isBoundary m base reg (edgeOf x) = isBoundary m base reg (edgeOf y) := by
  unfold isBoundary
  rcases ends_of hr hx with ⟨e1, e2⟩ | ⟨e1, e2⟩ <;> rcases ends_of hr hy with ⟨f1, f2⟩ | ⟨f1, f2⟩ <;> simp only [e1, e2, f1, f2, hs, ht]
  · rw [Bool.and_comm, Bool.beq_comm]
  · rw [Bool.and_comm, Bool.beq_comm]

theorem joins_half {m : Mesh P} (hr : Reachable d m) {x : Nat} (hx : LiveH m x) : Joins m (edgeOf x) (src m x) (m.target x) := by
  rcases ends_of hr hx with ⟨e1, e2⟩ | ⟨e1, e2⟩
  · right; exact ⟨e1, e2⟩
  · left; exact ⟨e1, e2⟩

theorem eq_of_ends {m : Mesh P} (hr : Reachable d m) {x y : Nat} (hx : LiveH m x) (he : edgeOf x = edgeOf y) (hs : src m x = src m y) : x = y := by
  rcases half_eq hr hx he with h | ⟨-, h1, h2⟩
  · exact h
  · have := (src_of hr hx).2.1
    rw [h2] at this
    exact absurd hs this

/-- Neighbours on a path without intersection points between old ends. -/
theorem Given.plain_part (G : Given d ps base pts sort edges c st pieces reg) {h x : Nat} (hp : PartOf ps st.m0 pts sort pieces h x) (hs : src st.m0 x < base) (ht : st.m0.target x < base) :
    src st.m0 x = src ps h ∧ st.m0.target x = ps.target h := by
  obtain ⟨q, q1, q2⟩ := G.path hp.1
  have hb : ∀ v ∈ q, base ≤ v := fun v hv => ((G.ready.points _).2 v (q1.subset hv)).1
  have hx := (G.part_iff hp.1).1 hp
  obtain ⟨-, s2, s3, -⟩ := G.sides hp.1
  constructor
  · have : src st.m0 x ∈ (pathOf ps pts sort h).dropLast := by rw [← s2]; exact List.mem_map.2 ⟨x, hx, rfl⟩
    rw [q2, ← List.cons_append, List.dropLast_concat] at this
    rcases List.mem_cons.1 this with h | h
    · exact h
    · have := hb _ h; omega
  · have : st.m0.target x ∈ (pathOf ps pts sort h).tail := by rw [← s3]; exact List.mem_map.2 ⟨x, hx, rfl⟩
    rw [q2, List.tail_cons] at this
    rcases List.mem_append.1 this with h | h
    · have := hb _ h; omega
    · simpa using h

theorem Given.new_part (G : Given d ps base pts sort edges c st pieces reg) {h x : Nat} (hp : PartOf ps st.m0 pts sort pieces h x) :
    (base ≤ src st.m0 x → src st.m0 x ∈ pts (edgeOf h)) ∧ (base ≤ st.m0.target x → st.m0.target x ∈ pts (edgeOf h)) := by
  obtain ⟨q, q1, q2⟩ := G.path hp.1
  obtain ⟨o1, o2⟩ := G.old' hp.1
  have hx := (G.part_iff hp.1).1 hp
  obtain ⟨-, s2, s3, -⟩ := G.sides hp.1
  constructor
  · intro hb
    have : src st.m0 x ∈ (pathOf ps pts sort h).dropLast := by rw [← s2]; exact List.mem_map.2 ⟨x, hx, rfl⟩
    rw [q2, ← List.cons_append, List.dropLast_concat] at this
    rcases List.mem_cons.1 this with h | h
    · omega
    · exact q1.subset h
  · intro hb
    have : st.m0.target x ∈ (pathOf ps pts sort h).tail := by rw [← s3]; exact List.mem_map.2 ⟨x, hx, rfl⟩
    rw [q2, List.tail_cons] at this
    rcases List.mem_append.1 this with h1 | h1
    · exact q1.subset h1
    · have : st.m0.target x = ps.target h := by simpa using h1
      omega

/-- The ends of a part tell the halfedge it belongs to. -/
theorem Given.part_ends (G : Given d ps base pts sort edges c st pieces reg) (one : SimpleEdges ps) {h h' x y : Nat} (hx : PartOf ps st.m0 pts sort pieces h x)
    (hy : PartOf ps st.m0 pts sort pieces h' y) (hs : src st.m0 x = src st.m0 y) (ht : st.m0.target x = st.m0.target y) : x = y := by
  have W := reachable_wf G.ready.psOk
  have he : edgeOf h = edgeOf h' := by
    by_cases h1 : base ≤ src st.m0 x
    · exact pts_edge G ((G.new_part hx).1 h1) (hs ▸ (G.new_part hy).1 (hs ▸ h1))
    · by_cases h2 : base ≤ st.m0.target x
      · exact pts_edge G ((G.new_part hx).2 h2) (ht ▸ (G.new_part hy).2 (ht ▸ h2))
      · obtain ⟨a1, a2⟩ := G.plain_part hx (by omega) (by omega)
        obtain ⟨b1, b2⟩ := G.plain_part hy (by omega) (by omega)
        have j1 := joins_half G.ready.psOk hx.1
        have j2 := joins_half G.ready.psOk hy.1
        rw [← a1, ← a2] at j1
        rw [← b1, ← b2, ← hs, ← ht] at j2
        exact one _ _ _ _ ((W.liveH_iff h).1 hx.1) ((W.liveH_iff h').1 hy.1) j1 j2
  -- `y` is also part of `h`
  obtain ⟨s1, s2, s3, s4⟩ := G.sides hx.1
  have hnd := G.path_nodup hx.1
  have hpy : PartOf ps st.m0 pts sort pieces h y := by
    refine ⟨hx.1, hy.2.1, by rw [he]; exact hy.2.2.1, ?_⟩
    rw [← hs, ← ht]; exact hx.2.2.2
  have m1 := (G.part_iff hx.1).1 hx
  have m2 := (G.part_iff hx.1).1 hpy
  have hsn : ((side ps st.m0 pts sort pieces h).map (src st.m0)).Nodup := by
    rw [s2]; exact hnd.sublist (List.dropLast_sublist _)
  exact List.inj_on_of_nodup_map hsn m1 m2 hs

/-- Two halfedges of polygons with the same ends are the same. -/
theorem Given.ends_inj (G : Given d ps base pts sort edges c st pieces reg) (one : SimpleEdges ps)
    (cutOne : ∀ f g a b v w, a ∈ c.faceEdges f → b ∈ c.faceEdges g → Joins c.m0 a v w → Joins c.m0 b v w → a = b) {x y : Nat}
    (hx : Proper ps pts sort pieces c st.m0 x) (hy : Proper ps pts sort pieces c st.m0 y) (lx : LiveH st.m0 x) (ly : LiveH st.m0 y)
    (hs : src st.m0 x = src st.m0 y) (ht : st.m0.target x = st.m0.target y) : x = y := by
  obtain ⟨f, hf, hx⟩ := hx
  obtain ⟨g, hg, hy⟩ := hy
  have hb := boundary_symm (base := base) (reg := reg) G.divided.valid lx ly hs ht
  rcases hx with hx | hx <;> rcases hy with hy | hy
  · obtain ⟨h, hh, hx⟩ := List.mem_flatMap.1 hx
    obtain ⟨h', hh', hy⟩ := List.mem_flatMap.1 hy
    exact G.part_ends one ((G.part_iff (G.live hf hh).1).2 hx) ((G.part_iff (G.live hg hh').1).2 hy) hs ht
  · obtain ⟨h, hh, hx⟩ := List.mem_flatMap.1 hx
    rw [G.piece_boundary hf hh hx, G.cut_inside hy] at hb
    cases hb
  · obtain ⟨h, hh, hy⟩ := List.mem_flatMap.1 hy
    rw [G.piece_boundary hg hh hy, G.cut_inside hx] at hb
    cases hb
  · have j1 := joins_half G.divided.valid lx
    have j2 := joins_half G.divided.valid ly
    rw [← hs, ← ht] at j2
    obtain ⟨-, k1, k2⟩ := G.cut_kept hx
    obtain ⟨-, l1, l2⟩ := G.cut_kept hy
    unfold Joins at j1 j2
    rw [k1, k2] at j1
    rw [l1, l2] at j2
    exact eq_of_ends G.divided.valid lx (cutOne _ _ _ _ _ _ hx hy j1 j2) hs

/-- The same halfedge is in no two polygons of the selected faces. -/
theorem Given.apart_polys (G : Given d ps base pts sort edges c st pieces reg) {sel : List Nat} (hnd : sel.Nodup) (hl : ∀ f ∈ sel, LiveF ps f) {poly : Nat → List (List Nat)}
    (S : ∀ f ∈ sel, FaceSub ps pts sort pieces c st.m0 f (poly f)) (two : ∀ e f g, f ∈ sel → g ∈ sel → e ∈ c.faceEdges f → e ∈ c.faceEdges g → f = g) :
    (sel.flatMap poly).flatten.Nodup := by
  rw [show (sel.flatMap poly).flatten = sel.flatMap (fun f => (poly f).flatten) by rw [List.flatMap_def, List.flatMap_def, List.flatten_flatten, List.map_map]; rfl]
  rw [List.nodup_flatMap]
  refine ⟨fun f hf => (S f hf).nodup, ?_⟩
  refine List.Nodup.pairwise_of_forall_ne hnd ?_
  intro f hf g hg hne x hx hy
  have key : ∀ {f' g'}, f' ∈ sel → g' ∈ sel → x ∈ outline ps st.m0 pts sort pieces f' → edgeOf x ∈ c.faceEdges g' → False := by
    intro f' g' hf' hg' h1 h2
    have := (G.outline_new (hl f' hf') h1).2
    have := G.cutLt g' _ h2
    omega
  rcases (S f hf).kind x hx with h1 | h1 <;> rcases (S g hg).kind x hy with h2 | h2
  · obtain ⟨h, hh, hx1⟩ := List.mem_flatMap.1 h1
    obtain ⟨h', hh', hx2⟩ := List.mem_flatMap.1 h2
    have l1 := G.live (hl f hf) hh
    have l2 := G.live (hl g hg) hh'
    have := G.part_one ((G.part_iff l1.1).2 hx1) ((G.part_iff l2.1).2 hx2)
    subst this
    have := l1.2.2.symm.trans l2.2.2
    injection this with this
    exact hne this
  · exact key hf hg h1 h2
  · exact key hg hf h2 h1
  · exact hne (two _ f g hf hg h1 h2)

theorem Round.closed {m : Mesh P} (hr : Reachable d m) {p : List Nat} (R : Round m p) (hl : ∀ h ∈ p, LiveH m h) (i : Nat) (hi : i < p.length) :
    src m (p.getD ((i + 1) % p.length) 0) = m.target (p.getD i 0) := by
  have h3 := R.three
  by_cases h : i + 1 < p.length
  · rw [Nat.mod_eq_of_lt h]
    have := (List.isChain_iff_getElem.1 R.chain) i h
    simp only [List.getD_eq_getElem?_getD, List.getElem?_eq_getElem h, List.getElem?_eq_getElem hi, Option.getD_some]
    exact this.symm
  · have : i + 1 = p.length := by omega
    rw [this, Nat.mod_self]
    have e1 : p.head? = some (p.getD 0 0) := by rw [List.head?_eq_getElem?, List.getD_eq_getElem?_getD, List.getElem?_eq_getElem (by omega)]; rfl
    have e2 : p.getLast? = some (p.getD i 0) := by rw [List.getLast?_eq_getElem?, List.getD_eq_getElem?_getD, show p.length - 1 = i by omega, List.getElem?_eq_getElem hi]; rfl
    exact (R.back _ _ e1 e2).symm

/-- The polygons of the selected faces form a valid polygon mesh. -/
theorem Given.traced (G : Given d ps base pts sort edges c st pieces reg) (one : SimpleEdges ps)
    (cutOne : ∀ f g a b v w, a ∈ c.faceEdges f → b ∈ c.faceEdges g → Joins c.m0 a v w → Joins c.m0 b v w → a = b) {sel : List Nat} (hnd : sel.Nodup) (hl : ∀ f ∈ sel, LiveF ps f)
    {poly : Nat → List (List Nat)} (S : ∀ f ∈ sel, FaceSub ps pts sort pieces c st.m0 f (poly f))
    (two : ∀ e f g, f ∈ sel → g ∈ sel → e ∈ c.faceEdges f → e ∈ c.faceEdges g → f = g) (nr : NoRepeat st.m0 (sel.flatMap poly)) : Traced st.m0 (sel.flatMap poly) := by
  have hr := G.divided.valid
  have W := reachable_wf hr
  have hmem : ∀ p ∈ sel.flatMap poly, ∃ f ∈ sel, p ∈ poly f := fun p hp => by obtain ⟨f, h1, h2⟩ := List.mem_flatMap.1 hp; exact ⟨f, h1, h2⟩
  have hlive : ∀ p ∈ sel.flatMap poly, ∀ h ∈ p, LiveH st.m0 h := by
    intro p hp h hh
    obtain ⟨f, hf, hpf⟩ := hmem p hp
    exact (S f hf).live h (List.mem_flatten.2 ⟨p, hpf, hh⟩)
  have hround : ∀ p ∈ sel.flatMap poly, Round st.m0 p := by
    intro p hp
    obtain ⟨f, hf, hpf⟩ := hmem p hp
    exact (S f hf).round p hpf
  have hproper : ∀ p ∈ sel.flatMap poly, ∀ h ∈ p, Proper ps pts sort pieces c st.m0 h := by
    intro p hp h hh
    obtain ⟨f, hf, hpf⟩ := hmem p hp
    exact ⟨f, hl f hf, (S f hf).kind h (List.mem_flatten.2 ⟨p, hpf, hh⟩)⟩
  have hflat := G.apart_polys hnd hl S two
  -- a directed edge is a halfedge
  have hdir : ∀ p ∈ sel.flatMap poly, ∀ u v, (u, v) ∈ Preproc.dirEdges (p.map st.m0.target) → ∃ h ∈ p, src st.m0 h = u ∧ st.m0.target h = v := by
    intro p hp u v huv
    unfold Preproc.dirEdges at huv
    obtain ⟨i, hi, e⟩ := List.mem_map.1 huv
    rw [List.mem_range, List.length_map] at hi
    have h3 := (hround p hp).three
    have hj : (i + 1) % p.length < p.length := Nat.mod_lt _ (by omega)
    have hc := (hround p hp).closed hr (hlive p hp) i hi
    have g1 : (p.map st.m0.target).getD i 0 = st.m0.target (p.getD i 0) := by
      simp [List.getD_eq_getElem?_getD, List.getElem?_eq_getElem hi]
    have g2 : (p.map st.m0.target).getD ((i + 1) % p.length) 0 = st.m0.target (p.getD ((i + 1) % p.length) 0) := by
      simp [List.getD_eq_getElem?_getD, List.getElem?_eq_getElem hj]
    rw [List.length_map, g1, g2] at e
    injection e with e1 e2
    refine ⟨p.getD ((i + 1) % p.length) 0, ?_, by rw [hc, e1], e2⟩
    rw [List.getD_eq_getElem?_getD, List.getElem?_eq_getElem hj]
    exact List.getElem_mem hj
  refine ⟨G.divided.same.2.2.2, ⟨G.divided.same.2.1, ?_⟩, hlive, ?_, ?_, ?_⟩
  · have := W.fRem_lt
    have n0 := G.divided.same.2.2.2
    cases hz : st.m0.fRem with
    | nil => rfl
    | cons a l => exfalso; have := this a (by rw [hz]; exact List.mem_cons_self); omega
  · intro p hp i hi
    have h3 := (hround p hp).three
    have hj : (i + 1) % p.length < p.length := Nat.mod_lt _ (by omega)
    have hm : p.getD ((i + 1) % p.length) 0 ∈ p := by
      rw [List.getD_eq_getElem?_getD, List.getElem?_eq_getElem hj]; exact List.getElem_mem hj
    rw [← (hround p hp).closed hr (hlive p hp) i hi]
    have hs := ((C29_consistent hr).opp _ (hlive p hp _ hm))
    unfold src
    cases hz : st.m0.source (p.getD ((i + 1) % p.length) 0) with
    | none => exfalso; simp_all
    | some a => rfl
  · intro q hq
    obtain ⟨p, hp, rfl⟩ := List.mem_map.1 hq
    refine ⟨by rw [List.length_map]; exact (hround p hp).three, nr p hp, ?_⟩
    intro v hv
    obtain ⟨h, hh, rfl⟩ := List.mem_map.1 hv
    exact ((C29_consistent hr).opp _ (hlive p hp h hh)).2.2.2.2.2.2.1.1
  · rw [List.nodup_flatMap]
    constructor
    · intro q hq
      obtain ⟨p, hp, rfl⟩ := List.mem_map.1 hq
      unfold Preproc.dirEdges
      have hn := nr p hp
      refine List.Nodup.map_on ?_ List.nodup_range
      intro i hi j hj hij
      rw [List.mem_range] at hi hj
      injection hij with e1 _
      rw [List.getD_eq_getElem?_getD, List.getD_eq_getElem?_getD, List.getElem?_eq_getElem hi, List.getElem?_eq_getElem hj, Option.getD_some, Option.getD_some] at e1
      exact (List.Nodup.getElem_inj_iff hn).1 e1
    · rw [List.pairwise_map]
      have hdis := (List.nodup_flatten.1 hflat).2
      rw [List.pairwise_iff_getElem] at hdis ⊢
      intro i j hi hj hij x hx hy
      obtain ⟨u, v⟩ := x
      have m1 := List.getElem_mem hi
      have m2 := List.getElem_mem hj
      obtain ⟨a, a1, a2, a3⟩ := hdir _ m1 u v hx
      obtain ⟨b, b1, b2, b3⟩ := hdir _ m2 u v hy
      have hab := G.ends_inj one cutOne (hproper _ m1 a a1) (hproper _ m2 b b1) (hlive _ m1 a a1) (hlive _ m2 b b1) (a2.trans b2.symm) (a3.trans b3.symm)
      subst hab
      exact hdis i j hi hj hij a1 b1

end Mcut.Trace
