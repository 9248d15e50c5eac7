import Verif.Lemmas.C81Mesh
import Verif.Lemmas.C79Cut

/-! Lemmas for C81: the reversed polygons. -/
namespace Mcut.Patches
open Mcut.Hmesh Mcut.Extract Mcut.Preproc Mcut.Trace
variable {P : Type} {d : P} {m0 : Mesh P}

/-- `s'` has the polygons of `s` and others. -/
def Ext (s s' : Two) : Prop := (∃ more, s'.polys = s.polys ++ more) ∧ ∀ j, j < s.polys.length → s'.faceOf j = s.faceOf j

/-- Polygon `j'` of `s'` is the reversed version of polygon `j` of `s`. -/
def RevOf (s s' : Two) (j j' : Nat) : Prop := ∃ p f, s.polys[j]? = some p ∧ s.faceOf j = some f ∧ s'.polys[j']? = some (reversed p) ∧ s'.faceOf j' = some f

/-- No face is known for numbers that are not used. -/
def Free (s : Two) : Prop := ∀ j, s.polys.length ≤ j → s.faceOf j = none

theorem Ext.refl (s : Two) : Ext s s := ⟨⟨[], by simp⟩, fun _ _ => rfl⟩

theorem Ext.poly {s s' : Two} (E : Ext s s') {j : Nat} {p : List Nat} (h : s.polys[j]? = some p) : s'.polys[j]? = some p := by
  obtain ⟨⟨more, e⟩, -⟩ := E
  rw [e, List.getElem?_append_left (List.getElem?_eq_some_iff.1 h).1]; exact h

theorem Ext.back {s s' : Two} (E : Ext s s') {j : Nat} (h : j < s.polys.length) : s'.polys[j]? = s.polys[j]? := by
  obtain ⟨⟨more, e⟩, -⟩ := E
  rw [e, List.getElem?_append_left h]

theorem Ext.le {s s' : Two} (E : Ext s s') : s.polys.length ≤ s'.polys.length := by
  obtain ⟨⟨more, e⟩, -⟩ := E
  rw [e]; simp

theorem Ext.trans {a b c : Two} (E : Ext a b) (F : Ext b c) : Ext a c := by
  have hle := E.le
  obtain ⟨⟨m, e⟩, h⟩ := E
  obtain ⟨⟨n, f⟩, g⟩ := F
  exact ⟨⟨m ++ n, by rw [f, e, List.append_assoc]⟩, fun j hj => by rw [g j (by omega), h j hj]⟩

theorem RevOf.right {s s' s'' : Two} {j j' : Nat} (R : RevOf s s' j j') (E : Ext s' s'') : RevOf s s'' j j' := by
  obtain ⟨p, f, h1, h2, h3, h4⟩ := R
  exact ⟨p, f, h1, h2, E.poly h3, by rw [E.2 _ (List.getElem?_eq_some_iff.1 h3).1]; exact h4⟩

theorem RevOf.left {s s1 s' : Two} {j j' : Nat} (R : RevOf s1 s' j j') (E : Ext s s1) (hj : j < s.polys.length) : RevOf s s' j j' := by
  obtain ⟨p, f, h1, h2, h3, h4⟩ := R
  exact ⟨p, f, by rw [← E.back hj]; exact h1, by rw [← E.2 j hj]; exact h2, h3, h4⟩

/-- The polygons of one patch. -/
theorem reversePolys_spec (cw : Nat) : ∀ (l : List Nat) (s : Two) (acc : List Nat), (∀ j ∈ l, ∃ p f, s.polys[j]? = some p ∧ s.faceOf j = some f) → Free s →
    ∃ s' new, l.foldlM (reversePoly cw) (s, acc) = some (s', acc ++ new) ∧ Ext s s' ∧ Free s' ∧ s'.patches = s.patches ∧ s'.pairs = s.pairs ∧ List.Forall₂ (RevOf s s') l new ∧ new.Nodup ∧
      ∀ j ∈ new, s.polys.length ≤ j := by
  intro l
  induction l with
  | nil => intro s acc _ F; exact ⟨s, [], by simp, Ext.refl s, F, rfl, rfl, .nil, List.nodup_nil, by simp⟩
  | cons j l ih =>
    intro s acc hl F
    obtain ⟨p, f, hp, hf⟩ := hl j List.mem_cons_self
    have hstep : reversePoly cw (s, acc) j = some (⟨s.polys ++ [reversed p], use s.polys.length s.users p, s.patches, (s.polys.length, cw) :: s.table, upd s.faceOf s.polys.length (some f), s.pairs⟩,
        acc ++ [s.polys.length]) := by
      unfold reversePoly
      simp only [hp, Option.bind_some, F _ (Nat.le_refl _), Option.isSome_none, Bool.false_eq_true, if_false, hf, Option.map_some]
    generalize hs1 : (⟨s.polys ++ [reversed p], use s.polys.length s.users p, s.patches, (s.polys.length, cw) :: s.table, upd s.faceOf s.polys.length (some f), s.pairs⟩ : Two) = s1 at hstep
    have E1 : Ext s s1 := by
      subst hs1
      refine ⟨⟨[reversed p], rfl⟩, fun k hk => ?_⟩
      have : k ≠ s.polys.length := by omega
      simp [upd, this]
    have F1 : Free s1 := by
      subst hs1
      intro k hk
      simp only [List.length_append, List.length_singleton] at hk
      have : k ≠ s.polys.length := by omega
      simp only [upd, this, if_false]
      exact F k (by omega)
    obtain ⟨s', new, h1, h2, h3, h4, h5, h6, h7, h8⟩ := ih s1 (acc ++ [s.polys.length]) (fun k hk => by
      obtain ⟨q, g, hq, hg⟩ := hl k (List.mem_cons_of_mem _ hk)
      exact ⟨q, g, E1.poly hq, by rw [E1.2 _ (List.getElem?_eq_some_iff.1 hq).1]; exact hg⟩) F1
    have hlen : s1.polys.length = s.polys.length + 1 := by subst hs1; simp
    have R1 : RevOf s s1 j s.polys.length := ⟨p, f, hp, hf, by subst hs1; simp, by subst hs1; simp [upd]⟩
    refine ⟨s', s.polys.length :: new, ?_, E1.trans h2, h3, by rw [h4]; subst hs1; rfl, by rw [h5]; subst hs1; rfl, .cons (R1.right h2) ?_, ?_, ?_⟩
    · rw [List.foldlM_cons, hstep]
      show l.foldlM (reversePoly cw) (s1, acc ++ [s.polys.length]) = _
      rw [h1]; simp
    · clear h1 h7 h8
      have hl' : ∀ k ∈ l, k < s.polys.length := fun k hk => by
        obtain ⟨q, g, hq, -⟩ := hl k (List.mem_cons_of_mem _ hk)
        exact (List.getElem?_eq_some_iff.1 hq).1
      clear ih hl
      induction h6 with
      | nil => exact .nil
      | cons r rs ih => exact .cons (r.left E1 (hl' _ List.mem_cons_self)) (ih (fun k hk => hl' k (List.mem_cons_of_mem _ hk)))
    · rw [List.nodup_cons]
      exact ⟨fun h => by have := h8 _ h; omega, h7⟩
    · intro k hk
      rcases List.mem_cons.1 hk with rfl | hk
      · exact Nat.le_refl _
      · have := h8 k hk; omega

/-- `l'` is the reversed version, in `s'`, of patch `k` of `s`. -/
def RevPatch (s s' : Two) (k : Nat) (l' : List Nat) : Prop := ∃ l, s.patches[k]? = some l ∧ List.Forall₂ (RevOf s s') l l' ∧ l'.Nodup ∧ ∀ j ∈ l', s.polys.length ≤ j

theorem RevPatch.right {s s' s'' : Two} {k : Nat} {l' : List Nat} (R : RevPatch s s' k l') (E : Ext s' s'') : RevPatch s s'' k l' := by
  obtain ⟨l, h1, h2, h3⟩ := R
  exact ⟨l, h1, h2.imp (fun _ _ r => r.right E), h3⟩

theorem forall₂_left {α β : Type} {R S : α → β → Prop} {l : List α} {l' : List β} (h : List.Forall₂ R l l') (hS : ∀ a ∈ l, ∀ b, R a b → S a b) : List.Forall₂ S l l' := by
  induction h with
  | nil => exact .nil
  | cons r _ ih => exact .cons (hS _ List.mem_cons_self _ r) (ih (fun a ha => hS a (List.mem_cons_of_mem _ ha)))

/-- All patches. -/
theorem reversePatches_spec {s0 : Two} (good : ∀ l ∈ s0.patches, ∀ j ∈ l, ∃ p f, s0.polys[j]? = some p ∧ s0.faceOf j = some f) : ∀ (ks done : List Nat) (s : Two) (news : List (List Nat)),
    (∀ k ∈ ks, k < s0.patches.length) → Ext s0 s → Free s → s.patches = s0.patches ++ news → s.pairs = s0.pairs ++ done.zip (List.range' s0.patches.length done.length) →
    List.Forall₂ (RevPatch s0 s) done news →
    ∃ s' news', ks.foldlM reversePatch s = some s' ∧ Ext s0 s' ∧ Free s' ∧ s'.patches = s0.patches ++ news' ∧
      s'.pairs = s0.pairs ++ (done ++ ks).zip (List.range' s0.patches.length (done ++ ks).length) ∧ List.Forall₂ (RevPatch s0 s') (done ++ ks) news' := by
  intro ks
  induction ks with
  | nil => intro done s news _ E F hp hpr hr; exact ⟨s, news, rfl, E, F, hp, by simpa using hpr, by simpa using hr⟩
  | cons k ks ih =>
    intro done s news hk E F hp hpr hr
    have hlt := hk k List.mem_cons_self
    have hl0 := List.getElem?_eq_getElem hlt
    have hl : s.patches[k]? = some s0.patches[k] := by rw [hp, List.getElem?_append_left hlt, hl0]
    have hg := good _ (List.getElem_mem hlt)
    have hlen := hr.length_eq
    obtain ⟨s', new, h1, h2, h3, h4, h5, h6, h7, h8⟩ := reversePolys_spec s.patches.length s0.patches[k] s [] (fun j hj => by
      obtain ⟨p, f, e1, e2⟩ := hg j hj
      exact ⟨p, f, E.poly e1, by rw [E.2 _ (List.getElem?_eq_some_iff.1 e1).1]; exact e2⟩) F
    have hstep : reversePatch s k = some { s' with patches := s'.patches ++ [new], pairs := s'.pairs ++ [(k, s.patches.length)] } := by
      unfold reversePatch
      rw [hl, Option.bind_some, h1]; rfl
    rw [List.foldlM_cons, hstep]
    generalize hs1 : ({ s' with patches := s'.patches ++ [new], pairs := s'.pairs ++ [(k, s.patches.length)] } : Two) = s1
    have E1 : Ext s' s1 := by subst hs1; exact ⟨⟨[], by simp⟩, fun _ _ => rfl⟩
    have F1 : Free s1 := by subst hs1; exact h3
    have e : done ++ k :: ks = (done ++ [k]) ++ ks := by simp
    rw [e]
    refine ih (done ++ [k]) s1 (news ++ [new]) (fun x hx => hk x (List.mem_cons_of_mem _ hx)) (E.trans (h2.trans E1)) F1 ?_ ?_ ?_
    · subst hs1; simp [h4, hp]
    · subst hs1
      show s'.pairs ++ _ = _
      rw [h5, hpr, hp, List.length_append, ← hlen, List.append_assoc]
      congr 1
      rw [List.length_append, List.length_singleton, List.range'_1_concat, List.zip_append (by simp)]
      rfl
    · refine List.rel_append (hr.imp (fun _ _ r => r.right (h2.trans E1))) (.cons ⟨_, hl0, forall₂_left h6 ?_, h7, ?_⟩ .nil)
      · intro j hj b r
        obtain ⟨p, f, e1, -⟩ := hg j hj
        exact (r.right E1).left E (List.getElem?_eq_some_iff.1 e1).1
      · intro j hj
        have := h8 j hj
        have := E.le
        omega

theorem reverseAll_spec {s0 : Two} (good : ∀ l ∈ s0.patches, ∀ j ∈ l, ∃ p f, s0.polys[j]? = some p ∧ s0.faceOf j = some f) (F : Free s0) (h0 : s0.pairs = []) (red blue : List Nat)
    (hlt : ∀ k ∈ red ++ blue, k < s0.patches.length) :
    ∃ s news, reverseAll s0 red blue = some s ∧ Ext s0 s ∧ s.patches = s0.patches ++ news ∧ s.pairs = (red ++ blue).zip (List.range' s0.patches.length (red ++ blue).length) ∧
      List.Forall₂ (RevPatch s0 s) (red ++ blue) news := by
  obtain ⟨s, news, h1, h2, -, h4, h5, h6⟩ := reversePatches_spec good (red ++ blue) [] s0 [] hlt (Ext.refl s0) F (by simp) (by simp [h0]) .nil
  exact ⟨s, news, h1, h2, h4, by simpa [h0] using h5, by simpa using h6⟩

/-! ## The corners of reversed polygons -/

theorem reversed_round (hr : Reachable d m0) {p : List Nat} (R : Round m0 p) (hl : ∀ h ∈ p, LiveH m0 h) : Round m0 (reversed p) := by
  have key : ∀ h, LiveH m0 h → src m0 (opposite h) = m0.target h ∧ m0.target (opposite h) = src m0 h := fun h hh => ⟨(src_of hr hh).2.2.1, (src_of hr hh).1.symm⟩
  refine ⟨by unfold reversed; simpa using R.three, ?_, ?_⟩
  · unfold reversed
    rw [List.isChain_reverse, List.isChain_map]
    have := R.chain
    rw [List.isChain_iff_getElem] at this ⊢
    intro i hi
    have h1 := key _ (hl _ (List.getElem_mem (by omega : i < p.length)))
    have h2 := key _ (hl _ (List.getElem_mem (by omega : i + 1 < p.length)))
    rw [h1.1, h2.2]
    exact (this i hi).symm
  · intro a b ha hb
    unfold reversed at ha hb
    rw [List.head?_reverse, List.getLast?_map] at ha
    rw [List.getLast?_reverse, List.head?_map] at hb
    cases h1 : p.getLast? with
    | none => rw [h1] at ha; cases ha
    | some x =>
      cases h2 : p.head? with
      | none => rw [h2] at hb; cases hb
      | some y =>
        rw [h1] at ha; rw [h2] at hb
        obtain rfl := Option.some.inj ha
        obtain rfl := Option.some.inj hb
        rw [(key y (hl y (List.mem_of_mem_head? h2))).2, (key x (hl x (List.mem_of_mem_getLast? h1))).1]
        exact (R.back y x h2 h1).symm

theorem src_rotated (hr : Reachable d m0) {p : List Nat} (R : Round m0 p) (hl : ∀ h ∈ p, LiveH m0 h) : p.map (src m0) ~r p.map m0.target := by
  refine ⟨1, List.ext_getElem (by simp) ?_⟩
  intro i h1 h2
  rw [List.length_map] at h2
  have := R.closed hr hl i h2
  rw [List.getElem_rotate]
  have hj : (i + 1) % p.length < p.length := Nat.mod_lt _ (by omega)
  simp only [List.getD_eq_getElem?_getD, List.getElem?_eq_getElem h2, List.getElem?_eq_getElem hj, Option.getD_some] at this
  simp only [List.getElem_map, List.length_map]
  exact this

theorem reversed_corners (hr : Reachable d m0) {p : List Nat} (R : Round m0 p) (hl : ∀ h ∈ p, LiveH m0 h) : (reversed p).map m0.target ~r (p.map m0.target).reverse := by
  have e : (reversed p).map m0.target = (p.map (src m0)).reverse := by
    unfold reversed
    rw [List.map_reverse, List.map_map]
    congr 1
    apply List.map_congr_left
    intro h hh
    exact ((src_of hr (hl h hh)).1).symm
  rw [e]
  exact (src_rotated hr R hl).reverse

/-- The sides of a polygon are the halfedges. -/
theorem round_sides (hr : Reachable d m0) {p : List Nat} (R : Round m0 p) (hl : ∀ h ∈ p, LiveH m0 h) {q : Nat × Nat} (hq : q ∈ cycPairs (p.map m0.target)) : ∃ h ∈ p, src m0 h = q.1 ∧ m0.target h = q.2 := by
  rw [← Preproc.dirEdges_eq] at hq
  unfold Preproc.dirEdges at hq
  obtain ⟨i, hi, e⟩ := List.mem_map.1 hq
  rw [List.mem_range, List.length_map] at hi
  have h3 := R.three
  have hj : (i + 1) % p.length < p.length := Nat.mod_lt _ (by omega)
  have hc := R.closed hr hl i hi
  have g1 : (p.map m0.target).getD i 0 = m0.target (p.getD i 0) := by simp [List.getD_eq_getElem?_getD, List.getElem?_eq_getElem hi]
  have g2 : (p.map m0.target).getD ((i + 1) % p.length) 0 = m0.target (p.getD ((i + 1) % p.length) 0) := by simp [List.getD_eq_getElem?_getD, List.getElem?_eq_getElem hj]
  rw [List.length_map, g1, g2] at e
  subst e
  refine ⟨p.getD ((i + 1) % p.length) 0, ?_, hc, rfl⟩
  rw [List.getD_eq_getElem?_getD, List.getElem?_eq_getElem hj]
  exact List.getElem_mem hj

end Mcut.Patches
