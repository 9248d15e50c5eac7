import Verif.Lemmas.C83Sheet

/-! Lemmas for C83: all patches, as they are and reversed, can be stitched. -/
namespace Mcut.Patches
open Mcut.Hmesh Mcut.Extract Mcut.Registry Mcut.CutEdges Mcut.Boundary Mcut.Trace Mcut.Split Mcut.CutPaths
variable {P : Type} {d : P} {ps : Mesh P} {base : Nat} {pts : Nat → List Nat} {sort : Nat → Nat → List Nat → List Nat} {edges : List Nat} {c : CutEdges.St P} {st : Boundary.St P}
  {pieces : Nat → List Nat} {reg : List (Nat × Nat)} {smV smF n : Nat} {o : Out} {T : Nat → List Nat} {poly : Nat → List (List Nat)}

/-- The polygons with the reversed ones; `ks` are the patches in the order in which they were reversed, `news` the reversed patches. -/
structure Doubled (o : Out) (T : Nat → List Nat) (pats : List (List Nat)) (table : List (Nat × Nat)) (ks : List Nat) (two : Two) (news : List (List Nat)) : Prop where
  polys : ∀ j, j < o.polygons.length → two.polys[j]? = o.polygons[j]?
  patches : two.patches = pats ++ news
  pairs : two.pairs = ks.zip (List.range' pats.length ks.length)
  rev : List.Forall₂ (fun k l' => ∃ l, pats[k]? = some l ∧ List.Forall₂ (fun j j' => ∃ p, o.polygons[j]? = some p ∧ two.polys[j']? = some (reversed p)) l l' ∧ l'.Nodup ∧ ∀ j ∈ l', o.polygons.length ≤ j) ks news
  users : ∀ h, ∃ r, two.users h = T h ++ r ∧ ∀ j, j ∈ r ↔ o.polygons.length ≤ j ∧ ∃ q, two.polys[j]? = some q ∧ h ∈ q
  old : ∀ j, j < o.polygons.length → patchOf two.table j = patchOf table j
  new : ∀ j, o.polygons.length ≤ j → j < two.polys.length → ∃ k l, patchOf two.table j = some k ∧ two.patches[k]? = some l ∧ j ∈ l
  faces : (∀ j, j < o.polygons.length → two.faceOf j = o.faceOf j) ∧ ∀ (a k : Nat) (l l' : List Nat), ks[a]? = some k → pats[k]? = some l → news[a]? = some l' → List.Forall₂ (fun j j' => two.faceOf j' = o.faceOf j ∧ (o.faceOf j).isSome) l l'

theorem doubled_of {pats : List (List Nat)} {table : List (Nat × Nat)} {red blue : List Nat} (good : ∀ l ∈ pats, ∀ j ∈ l, ∃ p f, o.polygons[j]? = some p ∧ o.faceOf j = some f)
    (free : ∀ j, o.polygons.length ≤ j → o.faceOf j = none) (hlt : ∀ k ∈ red ++ blue, k < pats.length) :
    ∃ two news, reverseAll ⟨o.polygons, T, pats, table, o.faceOf, []⟩ red blue = some two ∧ Doubled o T pats table (red ++ blue) two news := by
  obtain ⟨two, news, h1, E, h2, h3, h4⟩ := reverseAll_spec (s0 := ⟨o.polygons, T, pats, table, o.faceOf, []⟩) good free rfl red blue hlt
  obtain ⟨t1, t2, t3, t4⟩ := reverseAll_tables (s0 := ⟨o.polygons, T, pats, table, o.faceOf, []⟩) (fun l hl j hj => by
    obtain ⟨p, f, hp, -⟩ := good l hl j hj
    exact (List.getElem?_eq_some_iff.1 hp).1) h1
  refine ⟨two, news, h1, fun j hj => E.back hj, h2, h3, ?_, t1, t2, ?_, E.2, ?_⟩
  · refine h4.imp (fun k l' R => ?_)
    obtain ⟨l, l1, l2, l3, l4⟩ := R
    exact ⟨l, l1, l2.imp (fun j j' r => by obtain ⟨p, f, r1, -, r2, -⟩ := r; exact ⟨p, r1, r2⟩), l3, l4⟩
  · intro j h5 h6
    obtain ⟨k, hk⟩ := Option.isSome_iff_exists.1 (t4 j h5 h6)
    obtain ⟨l, l1, l2⟩ := (t3 j h5 h6 k).1 hk
    exact ⟨k, l, hk, l1, l2⟩
  · intro a k l l' ha hl hl'
    have := List.forall₂_iff_get.1 h4
    obtain ⟨b1, b2⟩ := List.getElem?_eq_some_iff.1 ha
    obtain ⟨c1, c2⟩ := List.getElem?_eq_some_iff.1 hl'
    have R := this.2 a b1 c1
    simp only [List.get_eq_getElem, b2, c2] at R
    obtain ⟨l0, l1, l2, -⟩ := R
    have e : l0 = l := by
      have : pats[k]? = some l0 := l1
      rw [hl] at this; exact (Option.some.inj this).symm
    subst e
    refine l2.imp (fun j j' r => ?_)
    obtain ⟨p, f, -, r1, -, r2⟩ := r
    have r1' : o.faceOf j = some f := r1
    exact ⟨by rw [r2, r1'], by rw [r1']; rfl⟩

theorem follows_unique {p : List Nat} (nd : p.Nodup) {x y z : Nat} (a : Follows p x y) (b : Follows p x z) : y = z := by
  obtain ⟨k, k1, k2⟩ := a
  obtain ⟨k', k1', k2'⟩ := b
  have hk : k < p.length := (List.getElem?_eq_some_iff.1 k1).1
  have := (List.getElem?_inj hk nd).1 (k1.trans k1'.symm)
  subst this
  rw [k2] at k2'; exact Option.some.inj k2'

theorem follows_unique' {p : List Nat} (nd : p.Nodup) {x y z : Nat} (a : Follows p x z) (b : Follows p y z) : x = y := by
  obtain ⟨k, k1, k2⟩ := a
  obtain ⟨k', k1', k2'⟩ := b
  have hk : k < p.length := (List.getElem?_eq_some_iff.1 k1).1
  have hk' : k' < p.length := (List.getElem?_eq_some_iff.1 k1').1
  have := (List.getElem?_inj (Nat.mod_lt _ (by omega)) nd).1 (k2.trans k2'.symm)
  have e : k = k' := by
    rcases Nat.lt_or_ge (k + 1) p.length with h | h <;> rcases Nat.lt_or_ge (k' + 1) p.length with h' | h'
    · rw [Nat.mod_eq_of_lt h, Nat.mod_eq_of_lt h'] at this; omega
    · rw [Nat.mod_eq_of_lt h, show k' + 1 = p.length by omega, Nat.mod_self] at this; omega
    · rw [Nat.mod_eq_of_lt h', show k + 1 = p.length by omega, Nat.mod_self] at this; omega
    · omega
  subst e
  rw [k1] at k1'; exact Option.some.inj k1'

/-- A reversed polygon goes the other way. -/
theorem follows_reversed {p : List Nat} {x y : Nat} (f : Follows (reversed p) x y) : Follows p (opposite y) (opposite x) := by
  obtain ⟨k, k1, k2⟩ := f
  have hlen : (reversed p).length = p.length := by unfold reversed; simp
  have hk := (List.getElem?_eq_some_iff.1 k1).1
  rw [hlen] at hk k2
  have get : ∀ i, i < p.length → (reversed p)[i]? = some (opposite (p[p.length - 1 - i]'(by omega))) := by
    intro i hi
    unfold reversed
    rw [List.getElem?_reverse (by simpa using hi), List.length_map, List.getElem?_map, List.getElem?_eq_getElem (by omega)]
    rfl
  have hm := Nat.mod_lt (k + 1) (by omega : 0 < p.length)
  rw [get k hk] at k1
  rw [get _ hm] at k2
  obtain rfl := Option.some.inj k1
  obtain rfl := Option.some.inj k2
  rw [opp_opp, opp_opp]
  refine ⟨p.length - 1 - (k + 1) % p.length, List.getElem?_eq_getElem (by omega), ?_⟩
  rcases Nat.lt_or_ge (k + 1) p.length with h | h
  · rw [show (p.length - 1 - (k + 1) % p.length + 1) % p.length = p.length - 1 - k from by rw [Nat.mod_eq_of_lt h, Nat.mod_eq_of_lt (by omega)]; omega]
    exact List.getElem?_eq_getElem (by omega)
  · have e : k + 1 = p.length := by omega
    rw [show (p.length - 1 - (k + 1) % p.length + 1) % p.length = p.length - 1 - k from by
      rw [e, Nat.mod_self, show p.length - 1 - 0 + 1 = p.length by omega, Nat.mod_self]; omega]
    exact List.getElem?_eq_getElem (by omega)

theorem firstThat_none {f : Nat → Option Bool} : ∀ {l : List Nat}, (∀ j ∈ l, f j = some false) → firstThat f l = some none := by
  intro l
  induction l with
  | nil => intro _; rfl
  | cons a l ih =>
    intro h
    unfold firstThat
    rw [h a List.mem_cons_self]
    exact ih (fun j hj => h j (List.mem_cons_of_mem _ hj))

theorem firstThat_append {f : Nat → Option Bool} {r : List Nat} : ∀ {l : List Nat}, (∀ j ∈ l, f j = some false) → firstThat f (l ++ r) = firstThat f r := by
  intro l
  induction l with
  | nil => intro _; rfl
  | cons a l ih =>
    intro h
    rw [List.cons_append, firstThat, h a List.mem_cons_self]
    exact ih (fun j hj => h j (List.mem_cons_of_mem _ hj))

theorem firstThat_head {f : Nat → Option Bool} {a : Nat} {l : List Nat} (h : f a = some true) : firstThat f (a :: l) = some (some a) := by
  unfold firstThat
  rw [h]; rfl

section
variable (C : CutFacts d ps smV smF base pts sort edges c st pieces reg n o T poly)
include C

/-- What is known about a polygon of the cut mesh. -/
theorem CutFacts.polyC {i : Nat} {p : List Nat} (hi : o.smCount ≤ i) (hp : o.polygons[i]? = some p) : Round st.m0 p ∧ p.Nodup ∧ (∀ h ∈ p, LiveH st.m0 h) ∧
    (∀ h n, Follows p h n → src st.m0 h < base → base ≤ st.m0.target h → edgeOf n < c.m0.nE) ∧
    (∀ h n, Follows p n h → base ≤ src st.m0 h → st.m0.target h < base → edgeOf n < c.m0.nE) := by
  obtain ⟨f, f1, f2, f3, f4⟩ := C.face hi hp
  have S := C.F.sub f f3
  have nd := C.F.used.simple p (List.mem_of_getElem? hp)
  have part : ∀ h ∈ p, src st.m0 h < base ∨ st.m0.target h < base → ∃ h', PartOf ps st.m0 pts sort pieces h' h ∧ h' ∈ ps.fh f ∧ h ∈ side ps st.m0 pts sort pieces h' := by
    intro h hh hb
    have hn : c.m0.nE ≤ edgeOf h := by
      by_contra hc
      have := C.F.cut_ends (h := h) (by omega)
      omega
    obtain ⟨h', a1, a2, a3⟩ := C.partS f3 f4 hh hn
    exact ⟨h', a1, a3, (C.F.G.part_iff a1.1).1 a1⟩
  refine ⟨S.round p f4, nd, fun h hh => S.live h (List.mem_flatten.2 ⟨p, f4, hh⟩), ?_, ?_⟩
  · intro h y hf h1 h2
    obtain ⟨h', a1, a2, a3⟩ := part h hf.mem.1 (.inl h1)
    obtain ⟨z, z1, z2, -⟩ := (C.F.cross f f3).ahead p f4 h hf.mem.1 h' a2 a3 ((C.F.G.new_part a1).2 h2)
    rw [follows_unique nd hf z1]
    exact C.F.G.cutLt f _ z2
  · intro h y hf h1 h2
    obtain ⟨h', a1, a2, a3⟩ := part h hf.mem.2 (.inr h2)
    obtain ⟨z, z1, z2, -⟩ := (C.F.cross f f3).back p f4 h hf.mem.2 h' a2 a3 ((C.F.G.new_part a1).1 h1)
    rw [follows_unique' nd hf z1, edge_opp]
    exact C.F.G.cutLt f _ z2

/-- The users of the opposite of a halfedge of the cut mesh that is not on the cut. -/
theorem CutFacts.oppUsers {i x : Nat} (hi : InCut o.polygons o.smCount i x) (hx : c.m0.nE ≤ edgeOf x) : T (opposite x) = [] ∨ ∃ j, T (opposite x) = [j] ∧ InCut o.polygons o.smCount j (opposite x) := by
  obtain ⟨h, f, p1, p2, p3, p4, p5, -⟩ := C.part hi hx
  have hop := part_opposite C.F.G.ready.psOk C.F.G.divided.valid p1
  cases hg : ps.face (opposite h) with
  | none => exact .inl (C.F.used.free _ _ hop hg)
  | some g =>
    obtain ⟨j', e1, e2⟩ := C.F.used.side _ _ g hop hg
    exact .inr ⟨j', e1, C.user.2 ⟨by rw [e1]; simp, (C.index e2).2 ((C.other p1.1 p2 hg).1 p3)⟩⟩

end

/-- The environment of the stitching. -/
def stitchEnv (st : Boundary.St P) (base : Nat) (reg : List (Nat × Nat)) (ihe : Nat → Option Nat) (two : Two) (o : Out) (ccw : Nat) : Stitch.Env P :=
  ⟨st.m0, base, reg, ihe, two, o.smCount, o.polygons.length, ccw, []⟩

section
variable (C : CutFacts d ps smV smF base pts sort edges c st pieces reg n o T poly) {m1 : Mesh P} {polys1 : List (List Nat)} {ver orig : Nat → Nat} {ihe : Nat → Option Nat}
  {pats : List (List Nat)} {table : List (Nat × Nat)} {ks : List Nat} {two : Two} {news : List (List Nat)} {out : Nat → Prop}
include C

theorem CutFacts.of_asis (PS : PatchesOf o.polygons o.smCount (2 * c.m0.nE) pats) (D : Doubled o T pats table ks two news) {l : List Nat} (hl : l ∈ pats) (h : Nat) :
    Stitch.Of (stitchEnv st base reg ihe two o pats.length) l h ↔ InPatch o l h := by
  obtain ⟨-, lt, -⟩ := PS.whole l hl
  constructor
  · rintro ⟨j, jl, p, hp, hh⟩
    have hp' : two.polys[j]? = some p := hp
    rw [D.polys j (lt j jl).2] at hp'
    exact ⟨j, jl, (lt j jl).1, p, hp', hh⟩
  · rintro ⟨j, jl, -, p, hp, hh⟩
    exact ⟨j, jl, p, by show two.polys[j]? = _; rw [D.polys j (lt j jl).2]; exact hp, hh⟩

/-- A patch, as it is. -/
theorem CutFacts.sheet_asis (simple : SimpleSource st.m0 o) (V : SplitOf d st.m0 base (2 * c.m0.nE) (o.polygons.take o.smCount) m1 polys1 ver orig) (hihe : ∀ h, edgeOf h < c.m0.nE → ihe h = some (ver h))
    (PS : PatchesOf o.polygons o.smCount (2 * c.m0.nE) pats) (TS : TableOf pats table) (tw : TwoSided o.polygons o.smCount (2 * c.m0.nE) out) (D : Doubled o T pats table ks two news) {k : Nat} {l : List Nat}
    (hk : pats[k]? = some l) :
    Stitch.Sheet d (stitchEnv st base reg ihe two o pats.length) m1 k (2 * c.m0.nE) l (gate st.m0 m1 c.m0.nE ver (InPatch o l)) := by
  have hl := List.mem_of_getElem? hk
  obtain ⟨nd, lt, whole⟩ := PS.whole l hl
  have hkl := (List.getElem?_eq_some_iff.1 hk).1
  have get : ∀ j ∈ l, ∀ p, two.polys[j]? = some p → o.polygons[j]? = some p := fun j hj p hp => by rw [← D.polys j (lt j hj).2]; exact hp
  refine C.sheet simple V (C.oneSide PS tw hl) hihe rfl rfl rfl rfl rfl (C.of_asis PS D hl) nd ?_ ?_ ?_
  · intro j hj
    obtain ⟨h1, h2⟩ := lt j hj
    obtain ⟨a1, a2, a3, a4, -⟩ := C.polyC h1 (List.getElem?_eq_getElem h2)
    exact ⟨_, by show two.polys[j]? = _; rw [D.polys j h2]; exact List.getElem?_eq_getElem h2, a1, a2, a4⟩
  · intro i hi j hj p q h hp hq h1 h2
    exact C.unique ⟨(lt i hi).1, p, get i hi p hp, h1⟩ ⟨(lt j hj).1, q, get j hj q hq, h2⟩
  · rintro h hn ⟨i, il, hi⟩
    obtain ⟨r, r1, r2⟩ := D.users (opposite h)
    have skip : ∀ j ∈ r, (if (if k % pats.length = k then decide (j < o.polygons.length) else decide (o.polygons.length ≤ j)) then (patchOf two.table j).map (fun i => decide (i = k)) else some false) = some false := by
      intro j hj
      have := ((r2 j).1 hj).1
      rw [Nat.mod_eq_of_lt hkl]
      have h' : ¬ j < o.polygons.length := by omega
      simp [h']
    rcases C.oppUsers hi hn with e | ⟨j, e, hj⟩
    · refine ⟨none, ?_, ?_⟩
      · unfold Stitch.userIn
        show firstThat _ (two.users (opposite h)) = _
        rw [r1, e, List.nil_append]
        exact firstThat_none skip
      · intro j
        refine ⟨fun h => (by cases h), ?_⟩
        rintro ⟨jl, p, hp, hm⟩
        have := (C.user.1 (⟨(lt j jl).1, p, get j jl p hp, hm⟩ : InCut o.polygons o.smCount j (opposite h))).1
        rw [e] at this; cases this
    · have jl : j ∈ l := (whole i il j).2 (.rel _ _ ⟨h, hi, hj, by unfold edgeOf at hn; omega⟩)
      have hlt := (lt j jl).2
      refine ⟨some j, ?_, ?_⟩
      · unfold Stitch.userIn
        show firstThat _ (two.users (opposite h)) = _
        rw [r1, e, List.singleton_append]
        refine firstThat_head ?_
        show (if (if k % pats.length = k then decide (j < o.polygons.length) else decide (o.polygons.length ≤ j)) then (patchOf two.table j).map (fun i => decide (i = k)) else some false) = some true
        rw [Nat.mod_eq_of_lt hkl, D.old j hlt, (TS j k).2 ⟨l, hk, jl⟩]
        simp [hlt]
      · intro j'
        constructor
        · intro h'
          obtain rfl := Option.some.inj h'
          obtain ⟨-, p, hp, hm⟩ := hj
          exact ⟨jl, p, by show two.polys[j]? = _; rw [D.polys j hlt]; exact hp, hm⟩
        · rintro ⟨jl', p, hp, hm⟩
          rw [C.unique hj ⟨(lt j' jl').1, p, get j' jl' p hp, hm⟩]

theorem CutFacts.joined_asis (PS : PatchesOf o.polygons o.smCount (2 * c.m0.nE) pats) (D : Doubled o T pats table ks two news) {l : List Nat} (hl : l ∈ pats) :
    Stitch.Joined (stitchEnv st base reg ihe two o pats.length) (2 * c.m0.nE) l := by
  obtain ⟨nd, lt, whole⟩ := PS.whole l hl
  have put : ∀ j ∈ l, ∀ p, o.polygons[j]? = some p → (stitchEnv st base reg ihe two o pats.length).two.polys[j]? = some p := fun j hj p hp => by show two.polys[j]? = _; rw [D.polys j (lt j hj).2]; exact hp
  rintro A ⟨i0, h0, hA0⟩ step i hi
  have half : ∀ a b, Beside o.polygons o.smCount (2 * c.m0.nE) a b → (a ∈ l ∧ A a) → (b ∈ l ∧ A b) := by
    rintro a b ⟨x, ⟨-, p, hp, hx⟩, ⟨hb, q, hq, hx'⟩, hc⟩ ⟨al, hA⟩
    have bl : b ∈ l := (whole a al b).2 (.rel _ _ ⟨x, ⟨(lt a al).1, p, hp, hx⟩, ⟨hb, q, hq, hx'⟩, hc⟩)
    exact ⟨bl, step a al hA p (put a al p hp) x hx hc b bl q (put b bl q hq) hx'⟩
  have sym : ∀ a b, Beside o.polygons o.smCount (2 * c.m0.nE) a b → Beside o.polygons o.smCount (2 * c.m0.nE) b a := by
    rintro a b ⟨x, hx, hx', hc⟩
    refine ⟨opposite x, hx', by rw [opp_opp]; exact hx, ?_⟩
    unfold opposite; split <;> omega
  have := class_closed (S := fun a => a ∈ l ∧ A a) (fun a b h => ⟨half a b h, half b a (sym a b h)⟩) ((whole i0 h0 i).1 hi)
  exact (this.1 ⟨h0, hA0⟩).2

/-- Where a reversed polygon is. -/
theorem CutFacts.revPlace (D : Doubled o T pats table ks two news) (PS : PatchesOf o.polygons o.smCount (2 * c.m0.nE) pats) {j : Nat} (h1 : o.polygons.length ≤ j) (h2 : j < two.polys.length) :
    ∃ (a k b i : Nat) (l l' p : List Nat), ks[a]? = some k ∧ pats[k]? = some l ∧ news[a]? = some l' ∧ l'[b]? = some j ∧ l[b]? = some i ∧ o.polygons[i]? = some p ∧ two.polys[j]? = some (reversed p) ∧
      patchOf two.table j = some (pats.length + a) := by
  obtain ⟨k', l', t1, t2, t3⟩ := D.new j h1 h2
  rw [D.patches] at t2
  by_cases hk : k' < pats.length
  · rw [List.getElem?_append_left hk] at t2
    have := ((PS.whole l' (List.mem_of_getElem? t2)).2.1 j t3).2
    omega
  · rw [List.getElem?_append_right (by omega)] at t2
    have hlen := D.rev.length_eq
    obtain ⟨b1, b2⟩ := List.getElem?_eq_some_iff.1 t2
    have R := (List.forall₂_iff_get.1 D.rev).2 (k' - pats.length) (by omega) b1
    simp only [List.get_eq_getElem, b2] at R
    obtain ⟨l, l1, l2, -⟩ := R
    obtain ⟨b, hb, hbe⟩ := List.getElem_of_mem t3
    have hlen2 := l2.length_eq
    have Q := (List.forall₂_iff_get.1 l2).2 b (by omega) hb
    simp only [List.get_eq_getElem, hbe] at Q
    obtain ⟨p, p1, p2⟩ := Q
    exact ⟨k' - pats.length, _, b, _, l, l', p, List.getElem?_eq_getElem (by omega), l1, t2, by rw [List.getElem?_eq_getElem hb, hbe], List.getElem?_eq_getElem (by omega), p1, p2,
      by rw [t1]; congr 1; omega⟩

omit C in
theorem patch_unique {smCount numCut : Nat} {polys : List (List Nat)} (PS : PatchesOf polys smCount numCut pats) {k k' i : Nat} {l l' : List Nat} (hl : pats[k]? = some l) (hl' : pats[k']? = some l') (hi : i ∈ l) (hi' : i ∈ l') : k = k' := by
  obtain ⟨a1, a2⟩ := List.getElem?_eq_some_iff.1 hl
  obtain ⟨b1, b2⟩ := List.getElem?_eq_some_iff.1 hl'
  have pw := List.pairwise_iff_getElem.1 PS.disjoint
  rcases Nat.lt_trichotomy k k' with h | h | h
  · exact absurd hi' (fun h' => pw k k' a1 b1 h (a2 ▸ hi) (b2 ▸ h'))
  · exact h
  · exact absurd hi (fun h' => pw k' k b1 a1 h (b2 ▸ hi') (a2 ▸ h'))

/-- The reversed polygon with a halfedge. -/
theorem CutFacts.revUser (D : Doubled o T pats table ks two news) (PS : PatchesOf o.polygons o.smCount (2 * c.m0.nE) pats) (hnd : ks.Nodup) {a k : Nat} {l l' : List Nat} (ha : ks[a]? = some k)
    (hl : pats[k]? = some l) (hl' : news[a]? = some l') {j x i : Nat} {q : List Nat} (h1 : o.polygons.length ≤ j) (hq : two.polys[j]? = some q) (hx : x ∈ q) (hi : InCut o.polygons o.smCount i (opposite x)) (il : i ∈ l) :
    j ∈ l' ∧ patchOf two.table j = some (pats.length + a) := by
  obtain ⟨a', k', b, i', m, m', p, r1, r2, r3, r4, r5, r6, r7, r8⟩ := C.revPlace D PS h1 (List.getElem?_eq_some_iff.1 hq).1
  rw [hq] at r7
  obtain rfl := Option.some.inj r7
  have im := List.mem_of_getElem? r5
  have e : i' = i := C.unique (x := opposite x) ⟨((PS.whole m (List.mem_of_getElem? r2)).2.1 i' im).1, p, r6, mem_reversed.1 hx⟩ hi
  subst e
  have e2 := patch_unique PS r2 hl im il
  subst e2
  have e3 : a' = a := by
    rw [← ha] at r1
    exact (List.getElem?_inj (List.getElem?_eq_some_iff.1 ha).1 hnd).1 r1.symm |>.symm
  subst e3
  rw [hl'] at r3
  obtain rfl := Option.some.inj r3
  exact ⟨List.mem_of_getElem? r4, r8⟩

theorem CutFacts.of_rev (PS : PatchesOf o.polygons o.smCount (2 * c.m0.nE) pats) {l l' : List Nat} (hl : l ∈ pats)
    (R : List.Forall₂ (fun j j' => ∃ p, o.polygons[j]? = some p ∧ two.polys[j']? = some (reversed p)) l l') (h : Nat) :
    Stitch.Of (stitchEnv st base reg ihe two o pats.length) l' h ↔ InPatch o l (opposite h) := by
  obtain ⟨-, lt, -⟩ := PS.whole l hl
  have hlen := R.length_eq
  constructor
  · rintro ⟨j', jl, q, hq, hh⟩
    obtain ⟨b, hb, hbe⟩ := List.getElem_of_mem jl
    have Q := (List.forall₂_iff_get.1 R).2 b (by omega) hb
    simp only [List.get_eq_getElem, hbe] at Q
    obtain ⟨p, p1, p2⟩ := Q
    have hq' : two.polys[j']? = some q := hq
    rw [p2] at hq'
    obtain rfl := Option.some.inj hq'
    exact ⟨_, List.getElem_mem _, (lt _ (List.getElem_mem _)).1, p, p1, mem_reversed.1 hh⟩
  · rintro ⟨j, jl, -, p, hp, hh⟩
    obtain ⟨b, hb, hbe⟩ := List.getElem_of_mem jl
    have Q := (List.forall₂_iff_get.1 R).2 b hb (by omega)
    simp only [List.get_eq_getElem, hbe] at Q
    obtain ⟨p', p1, p2⟩ := Q
    rw [hp] at p1
    obtain rfl := Option.some.inj p1
    exact ⟨_, List.getElem_mem _, reversed p, p2, mem_reversed.2 hh⟩

omit C in
theorem Doubled.at (D : Doubled o T pats table ks two news) {a k : Nat} {l' : List Nat} (ha : ks[a]? = some k) (hl' : news[a]? = some l') : ∃ l, pats[k]? = some l ∧
    List.Forall₂ (fun j j' => ∃ p, o.polygons[j]? = some p ∧ two.polys[j']? = some (reversed p)) l l' ∧ l'.Nodup ∧ ∀ j ∈ l', o.polygons.length ≤ j := by
  obtain ⟨b1, b2⟩ := List.getElem?_eq_some_iff.1 ha
  obtain ⟨c1, c2⟩ := List.getElem?_eq_some_iff.1 hl'
  have R := (List.forall₂_iff_get.1 D.rev).2 a b1 c1
  simp only [List.get_eq_getElem, b2, c2] at R
  exact R

/-- A reversed patch. -/
theorem CutFacts.sheet_rev (simple : SimpleSource st.m0 o) (V : SplitOf d st.m0 base (2 * c.m0.nE) (o.polygons.take o.smCount) m1 polys1 ver orig) (hihe : ∀ h, edgeOf h < c.m0.nE → ihe h = some (ver h))
    (PS : PatchesOf o.polygons o.smCount (2 * c.m0.nE) pats) (tw : TwoSided o.polygons o.smCount (2 * c.m0.nE) out) (D : Doubled o T pats table ks two news) (hnd : ks.Nodup)
    {a k : Nat} {l l' : List Nat} (ha : ks[a]? = some k) (hl : pats[k]? = some l) (hl' : news[a]? = some l') :
    Stitch.Sheet d (stitchEnv st base reg ihe two o pats.length) m1 (pats.length + a) (2 * c.m0.nE) l' (gate st.m0 m1 c.m0.nE ver (fun h => InPatch o l (opposite h))) := by
  have hr := C.F.G.divided.valid
  have hlm := List.mem_of_getElem? hl
  obtain ⟨nd, lt, whole⟩ := PS.whole l hlm
  obtain ⟨l0, e0, R, nd', ge⟩ := D.at ha hl'
  rw [hl] at e0
  obtain rfl := Option.some.inj e0
  have hlen := R.length_eq
  have hkl := (List.getElem?_eq_some_iff.1 hl).1
  have inv : ∀ j ∈ l', ∃ (b i : Nat) (p : List Nat), l'[b]? = some j ∧ l[b]? = some i ∧ i ∈ l ∧ o.polygons[i]? = some p ∧ two.polys[j]? = some (reversed p) := by
    intro j hj
    obtain ⟨b, hb, hbe⟩ := List.getElem_of_mem hj
    have Q := (List.forall₂_iff_get.1 R).2 b (by omega) hb
    simp only [List.get_eq_getElem, hbe] at Q
    obtain ⟨p, p1, p2⟩ := Q
    exact ⟨b, _, p, by rw [List.getElem?_eq_getElem hb, hbe], List.getElem?_eq_getElem (by omega), List.getElem_mem _, p1, p2⟩
  have once : ∀ i ∈ l', ∀ j ∈ l', ∀ p q h, two.polys[i]? = some p → two.polys[j]? = some q → h ∈ p → h ∈ q → i = j := by
    intro i hi j hj p q h hp hq h1 h2
    obtain ⟨b, i', p', b1, b2, b3, b4, b5⟩ := inv i hi
    obtain ⟨e, j', q', e1, e2, e3, e4, e5⟩ := inv j hj
    rw [hp] at b5; obtain rfl := Option.some.inj b5
    rw [hq] at e5; obtain rfl := Option.some.inj e5
    have := C.unique (x := opposite h) ⟨(lt i' b3).1, p', b4, mem_reversed.1 h1⟩ ⟨(lt j' e3).1, q', e4, mem_reversed.1 h2⟩
    subst this
    have : b = e := (List.getElem?_inj (List.getElem?_eq_some_iff.1 b2).1 nd).1 (b2.trans e2.symm)
    subst this
    rw [b1] at e1; exact Option.some.inj e1
  refine C.sheet simple V ((C.oneSide PS tw hlm).flip hr) hihe rfl rfl rfl rfl rfl (C.of_rev PS hlm R) nd' ?_ once ?_
  · intro j hj
    obtain ⟨b, i, p, -, -, il, p1, p2⟩ := inv j hj
    obtain ⟨a1, a2, a3, a4, a5⟩ := C.polyC (lt i il).1 p1
    refine ⟨reversed p, p2, reversed_round hr a1 a3, ?_, ?_⟩
    · unfold reversed
      rw [List.nodup_reverse]
      exact a2.map (fun x y h => by have := congrArg opposite h; rwa [opp_opp, opp_opp] at this)
    · intro h y hf h1 h2
      have f' := follows_reversed hf
      have hlv : LiveH st.m0 h := by
        have := (src_of hr (a3 _ f'.mem.2)).2.2.2.2
        rw [opp_opp] at this; exact this
      have sh := src_of hr hlv
      have := a5 (opposite h) (opposite y) f' (by rw [sh.2.2.1]; exact h2) (by rw [← sh.1]; exact h1)
      rw [edge_opp] at this; exact this
  · rintro h hn ⟨i0, il0, hi0⟩
    obtain ⟨r, r1, r2⟩ := D.users (opposite h)
    have hk' : ¬ (pats.length + a) % pats.length = pats.length + a := by
      have := Nat.mod_lt (pats.length + a) (by omega : 0 < pats.length)
      omega
    have skip : ∀ j ∈ T (opposite h), (if (if (pats.length + a) % pats.length = pats.length + a then decide (j < o.polygons.length) else decide (o.polygons.length ≤ j)) then
        (patchOf two.table j).map (fun i => decide (i = pats.length + a)) else some false) = some false := by
      intro j hj
      obtain ⟨p, hp, -⟩ := ((C.F.used.table (opposite h)).2 j).1 hj
      have := (List.getElem?_eq_some_iff.1 hp).1
      have h' : ¬ o.polygons.length ≤ j := by omega
      simp only [if_neg hk', decide_eq_false h']
      rfl
    have hall : ∀ j ∈ r, j ∈ l' ∧ patchOf two.table j = some (pats.length + a) ∧ ∃ q, two.polys[j]? = some q ∧ opposite h ∈ q := by
      intro j hj
      obtain ⟨h1, q, hq, hx⟩ := (r2 j).1 hj
      -- the polygon on the other side
      obtain ⟨a', k', b, i', m, m', p, s1, s2, s3, s4, s5, s6, s7, s8⟩ := C.revPlace D PS h1 (List.getElem?_eq_some_iff.1 hq).1
      rw [hq] at s7
      have hxp : h ∈ p := by
        have := mem_reversed.1 ((Option.some.inj s7) ▸ hx)
        rw [opp_opp] at this; exact this
      have im := List.mem_of_getElem? s5
      have hin : InCut o.polygons o.smCount i' (opposite (opposite h)) := by
        rw [opp_opp]
        exact ⟨((PS.whole m (List.mem_of_getElem? s2)).2.1 i' im).1, p, s6, hxp⟩
      have hoc : 2 * c.m0.nE ≤ opposite h := by
        have : c.m0.nE ≤ edgeOf (opposite h) := by rw [edge_opp]; exact hn
        unfold edgeOf at this; omega
      have hbes : Beside o.polygons o.smCount (2 * c.m0.nE) i0 i' := ⟨opposite h, hi0, hin, hoc⟩
      have il : i' ∈ l := (whole i0 il0 i').2 (.rel _ _ hbes)
      obtain ⟨t1, t2⟩ := C.revUser D PS hnd ha hl hl' h1 hq hx hin il
      exact ⟨t1, t2, q, hq, hx⟩
    have key : Stitch.userIn (stitchEnv st base reg ihe two o pats.length) (pats.length + a) (opposite h) =
        firstThat (fun j => if (if (pats.length + a) % pats.length = pats.length + a then decide (j < o.polygons.length) else decide (o.polygons.length ≤ j)) then
        (patchOf two.table j).map (fun i => decide (i = pats.length + a)) else some false) r := by
      unfold Stitch.userIn
      show firstThat _ (two.users (opposite h)) = _
      rw [r1]
      exact firstThat_append skip
    rw [key]
    cases r with
    | nil =>
      refine ⟨none, rfl, fun j => ⟨fun h => (by cases h), ?_⟩⟩
      rintro ⟨jl, p, hp, hm⟩
      have := (r2 j).2 ⟨ge j jl, p, hp, hm⟩
      cases this
    | cons j r =>
      obtain ⟨t1, t2, q, t3, t4⟩ := hall j List.mem_cons_self
      refine ⟨some j, firstThat_head ?_, ?_⟩
      · have h' := ge j t1
        simp only [if_neg hk', t2, decide_eq_true h', if_true, Option.map_some, decide_true]
      · intro j'
        constructor
        · intro h'
          obtain rfl := Option.some.inj h'
          exact ⟨t1, q, t3, t4⟩
        · rintro ⟨jl', p, hp, hm⟩
          rw [once j t1 j' jl' q p (opposite h) t3 hp t4 hm]

theorem CutFacts.joined_rev (PS : PatchesOf o.polygons o.smCount (2 * c.m0.nE) pats) (D : Doubled o T pats table ks two news)
    {a k : Nat} {l l' : List Nat} (ha : ks[a]? = some k) (hl : pats[k]? = some l) (hl' : news[a]? = some l') :
    Stitch.Joined (stitchEnv st base reg ihe two o pats.length) (2 * c.m0.nE) l' := by
  have hlm := List.mem_of_getElem? hl
  obtain ⟨nd, lt, whole⟩ := PS.whole l hlm
  obtain ⟨l0, e0, R, nd', ge⟩ := D.at ha hl'
  rw [hl] at e0
  obtain rfl := Option.some.inj e0
  have hlen := R.length_eq
  have get : ∀ (b i : Nat), l[b]? = some i → ∃ i' p, l'[b]? = some i' ∧ i' ∈ l' ∧ o.polygons[i]? = some p ∧ two.polys[i']? = some (reversed p) := by
    intro b i hb
    obtain ⟨b1, b2⟩ := List.getElem?_eq_some_iff.1 hb
    have Q := (List.forall₂_iff_get.1 R).2 b b1 (by omega)
    simp only [List.get_eq_getElem, b2] at Q
    obtain ⟨p, p1, p2⟩ := Q
    exact ⟨_, p, List.getElem?_eq_getElem (by omega), List.getElem_mem _, p1, p2⟩
  rintro A ⟨i0, h0, hA0⟩ step i hi
  obtain ⟨b0, hb0⟩ := List.mem_iff_getElem?.1 h0
  obtain ⟨b, hb⟩ := List.mem_iff_getElem?.1 hi
  have hb0' : b0 < l.length := by have := (List.getElem?_eq_some_iff.1 hb0).1; omega
  have hb' : b < l.length := by have := (List.getElem?_eq_some_iff.1 hb).1; omega
  let B : Nat → Prop := fun x => ∃ (e y : Nat), l[e]? = some x ∧ l'[e]? = some y ∧ A y
  have half : ∀ x y, Beside o.polygons o.smCount (2 * c.m0.nE) x y → B x → B y := by
    rintro x y hbes ⟨e, x', e1, e2, hA⟩
    have xl := List.mem_of_getElem? e1
    have yl : y ∈ l := (whole x xl y).2 (.rel _ _ hbes)
    obtain ⟨z, ⟨-, p, hp, hx⟩, ⟨hb, q, hq, hx'⟩, hc⟩ := hbes
    obtain ⟨f, hf⟩ := List.mem_iff_getElem?.1 yl
    obtain ⟨y', q', f1, f2, f3, f4⟩ := get f y hf
    obtain ⟨x'', p', g1, g2, g3, g4⟩ := get e x e1
    rw [e2] at g1; obtain rfl := Option.some.inj g1
    rw [hp] at g3; obtain rfl := Option.some.inj g3
    rw [hq] at f3; obtain rfl := Option.some.inj f3
    refine ⟨f, y', hf, f1, step x' g2 hA _ g4 (opposite z) (mem_reversed.2 (by rw [opp_opp]; exact hx)) ?_ y' f2 _ f4 (mem_reversed.2 (by rw [opp_opp]; exact hx'))⟩
    unfold opposite; split <;> omega
  have sym : ∀ a b, Beside o.polygons o.smCount (2 * c.m0.nE) a b → Beside o.polygons o.smCount (2 * c.m0.nE) b a := by
    rintro a b ⟨x, hx, hx', hc⟩
    refine ⟨opposite x, hx', by rw [opp_opp]; exact hx, ?_⟩
    unfold opposite; split <;> omega
  have cc := class_closed (S := B) (fun x y h => ⟨half x y h, half y x (sym x y h)⟩) ((whole l[b0] (List.getElem_mem _) l[b]).1 (List.getElem_mem _))
  obtain ⟨e, y, e1, e2, hA⟩ := cc.1 ⟨b0, i0, List.getElem?_eq_getElem hb0', hb0, hA0⟩
  have : e = b := (List.getElem?_inj (List.getElem?_eq_some_iff.1 e1).1 nd).1 (e1.trans (List.getElem?_eq_getElem hb').symm)
  subst this
  rw [hb] at e2
  obtain rfl := Option.some.inj e2
  exact hA

/-- The seeds of the reversed patches. -/
theorem CutFacts.starts (PS : PatchesOf o.polygons o.smCount (2 * c.m0.nE) pats) (D : Doubled o T pats table ks two news) (hnd : ks.Nodup) (hlt : ∀ k ∈ ks, k < pats.length) {starts : List (Nat × Nat)}
    (ST : StartsOf o.polygons (2 * c.m0.nE) pats starts) :
    ∃ all, Stitch.allStarts two o.polygons.length starts = some all ∧
      (∀ (k : Nat) (l : List Nat), pats[k]? = some l → Stitch.Begun (stitchEnv st base reg ihe two o pats.length) all (2 * c.m0.nE) k l) ∧
      ∀ (a : Nat) (l' : List Nat), a < ks.length → news[a]? = some l' → Stitch.Begun (stitchEnv st base reg ihe two o pats.length) all (2 * c.m0.nE) (pats.length + a) l' := by
  have hlen := ST.length_eq
  have hlenN := D.rev.length_eq
  have start : ∀ (k : Nat) (l : List Nat), pats[k]? = some l → ∃ x p y, starts[k]? = some x ∧ x.1 ∈ l ∧ o.polygons[x.1]? = some p ∧ p[x.2]? = some y ∧ y < 2 * c.m0.nE := by
    intro k l hk
    obtain ⟨k1, k2⟩ := List.getElem?_eq_some_iff.1 hk
    have Q := (List.forall₂_iff_get.1 ST).2 k k1 (by omega)
    simp only [List.get_eq_getElem, k2] at Q
    obtain ⟨q1, p, y, q2, q3, q4⟩ := Q
    exact ⟨_, p, y, List.getElem?_eq_getElem (by omega), q1, q2, q3, q4⟩
  -- the reversed ones
  have rs : ∀ a, a < ks.length → ∃ x, Stitch.reversedStart two o.polygons.length starts (ks.getD a 0) = some x ∧ ∀ l', news[a]? = some l' →
      ∃ q y, x.1 ∈ l' ∧ two.polys[x.1]? = some q ∧ q[x.2]? = some y ∧ y < 2 * c.m0.nE := by
    intro a ha
    have hka := List.getElem?_eq_getElem ha
    have hgd : ks.getD a 0 = ks[a] := by rw [List.getD_eq_getElem?_getD, hka, Option.getD_some]
    have hkl := hlt _ (List.getElem_mem ha)
    obtain ⟨l', hl'⟩ : ∃ l', news[a]? = some l' := ⟨_, List.getElem?_eq_getElem (by omega)⟩
    obtain ⟨l, hl, R, nd', ge⟩ := D.at hka hl'
    obtain ⟨x, p, y, s1, s2, s3, s4, s5⟩ := start _ _ hl
    obtain ⟨-, lt, -⟩ := PS.whole l (List.mem_of_getElem? hl)
    obtain ⟨r, r1, r2⟩ := D.users (opposite y)
    have hy : y ∈ p := List.mem_of_getElem? s4
    have hin : InCut o.polygons o.smCount x.1 (opposite (opposite y)) := by rw [opp_opp]; exact ⟨(lt _ s2).1, p, s3, hy⟩
    -- the first reversed user
    have hex : ∃ e, (two.users (opposite y)).find? (fun e => decide (o.polygons.length ≤ e)) = some e := by
      cases hf : (two.users (opposite y)).find? (fun e => decide (o.polygons.length ≤ e)) with
      | some e => exact ⟨e, rfl⟩
      | none =>
        exfalso
        obtain ⟨b, hb⟩ := List.mem_iff_getElem?.1 s2
        obtain ⟨b1, b2⟩ := List.getElem?_eq_some_iff.1 hb
        have hlen2 := R.length_eq
        have Q := (List.forall₂_iff_get.1 R).2 b b1 (by omega)
        simp only [List.get_eq_getElem, b2] at Q
        obtain ⟨p', p1, p2⟩ := Q
        rw [s3] at p1; obtain rfl := Option.some.inj p1
        have hm : l'[b] ∈ r := (r2 _).2 ⟨ge _ (List.getElem_mem _), _, p2, mem_reversed.2 (by rw [opp_opp]; exact hy)⟩
        have := List.find?_eq_none.1 hf _ (by rw [r1]; exact List.mem_append_right _ hm)
        have := ge l'[b] (List.getElem_mem _)
        simp at *
        omega
    obtain ⟨e, he⟩ := hex
    have hge : o.polygons.length ≤ e := by have := List.find?_some he; simpa using this
    have hmem := List.mem_of_find?_eq_some he
    rw [r1, List.mem_append] at hmem
    have her : e ∈ r := by
      rcases hmem with h | h
      · obtain ⟨p', hp', -⟩ := ((C.F.used.table (opposite y)).2 e).1 h
        have := (List.getElem?_eq_some_iff.1 hp').1
        omega
      · exact h
    obtain ⟨-, q, hq, hx⟩ := (r2 e).1 her
    obtain ⟨t1, -⟩ := C.revUser D PS hnd hka hl hl' hge hq hx hin s2
    refine ⟨(e, (q.takeWhile (fun x => x != opposite y)).length), ?_, ?_⟩
    · unfold Stitch.reversedStart
      rw [hgd, s1, Option.bind_some, D.polys _ (lt _ s2).2, s3, Option.bind_some, s4, Option.bind_some, he, Option.bind_some, hq, Option.bind_some, if_pos (by simpa using hx)]
    · intro l'' hl''
      rw [hl'] at hl''
      obtain rfl := Option.some.inj hl''
      refine ⟨q, opposite y, t1, hq, takeWhile_place hx, ?_⟩
      rw [cut_lt, edge_opp]; exact cut_lt.1 s5
  choose! f hf1 hf2 using rs
  refine ⟨starts ++ (List.range ks.length).map f, ?_, ?_, ?_⟩
  · unfold Stitch.allStarts
    have : two.pairs.mapM (fun x => Stitch.reversedStart two o.polygons.length starts x.1) = some ((List.range ks.length).map f) := by
      apply mapM_forall₂
      rw [List.forall₂_iff_get]
      refine ⟨by rw [D.pairs]; simp, ?_⟩
      intro i h1 h2
      simp only [List.length_map, List.length_range] at h2
      simp only [List.get_eq_getElem, List.getElem_map, List.getElem_range]
      have : (two.pairs[i]).1 = ks.getD i 0 := by
        rw [List.getD_eq_getElem?_getD, List.getElem?_eq_getElem h2, Option.getD_some]
        have h3 : two.pairs[i]? = some (ks[i], pats.length + i) := by
          rw [D.pairs, List.getElem?_zip_eq_some]
          exact ⟨List.getElem?_eq_getElem h2, by rw [List.getElem?_range' h2]; simp⟩
        obtain ⟨_, e⟩ := List.getElem?_eq_some_iff.1 h3
        rw [e]
      rw [this]
      exact hf1 i h2
    rw [this]; rfl
  · intro k l hk
    obtain ⟨x, p, y, s1, s2, s3, s4, s5⟩ := start k l hk
    obtain ⟨-, lt, -⟩ := PS.whole l (List.mem_of_getElem? hk)
    exact ⟨x, p, y, by rw [List.getElem?_append_left (List.getElem?_eq_some_iff.1 s1).1]; exact s1, s2, by show two.polys[_]? = _; rw [D.polys _ (lt _ s2).2]; exact s3, s4, s5⟩
  · intro a l' ha hl'
    obtain ⟨q, y, t1, t2, t3, t4⟩ := hf2 a ha l' hl'
    refine ⟨f a, q, y, ?_, t1, t2, t3, t4⟩
    rw [List.getElem?_append_right (by omega), show pats.length + a - starts.length = a by omega, List.getElem?_map, List.getElem?_range ha]; rfl

end
end Mcut.Patches
