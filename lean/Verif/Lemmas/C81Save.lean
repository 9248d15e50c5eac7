import Verif.Lemmas.C81Rev
import Verif.Lemmas.C80Out

/-! Lemmas for C81: saving the patches. -/
namespace Mcut.Patches
open Mcut.Hmesh Mcut.Extract Mcut.Preproc Mcut.Trace
variable {P : Type} {d : P} {m0 : Mesh P} {base smV smF n : Nat}

/-- The polygons from `start` on are boundaries of faces, and no side occurs twice. -/
structure Sound (m0 : Mesh P) (start : Nat) (polys : List (List Nat)) : Prop where
  face : ∀ i p, start ≤ i → polys[i]? = some p → Round m0 p ∧ (∀ h ∈ p, LiveH m0 h) ∧ (p.map m0.target).Nodup
  ends : ∀ i j p q x y, start ≤ i → start ≤ j → polys[i]? = some p → polys[j]? = some q → x ∈ p → y ∈ q → src m0 x = src m0 y → m0.target x = m0.target y → i = j

theorem corners_of {polys : List (List Nat)} {j : Nat} {p : List Nat} (h : polys[j]? = some p) : corners m0 polys j = p.map m0.target := by
  unfold corners; rw [List.getD_eq_getElem?_getD, h, Option.getD_some]

theorem mapM_forall₂ {α β : Type} {t : α → Option β} {l : List α} {l' : List β} (h : List.Forall₂ (fun a b => t a = some b) l l') : l.mapM t = some l' := by
  induction h with
  | nil => rfl
  | cons r _ ih => rw [List.mapM_cons, r, ih]; rfl

theorem mapM_range {α β : Type} {l : List α} {h : α → Option β} {l' : List β} (hg : List.Forall₂ (fun a b => h a = some b) l l') : (List.range l.length).mapM (fun i => (l[i]?).bind h) = some l' := by
  apply mapM_forall₂
  have hlen := hg.length_eq
  rw [List.forall₂_iff_get] at hg ⊢
  refine ⟨by simpa using hlen, ?_⟩
  intro i h1 h2
  have : i < l.length := by simpa using h1
  simp only [List.get_eq_getElem, List.getElem_range]
  rw [List.getElem?_eq_getElem this, Option.bind_some]
  exact hg.2 i this h2

theorem forall₂_map_self {α β : Type} {R : α → β → Prop} {g : α → β} {l : List α} (h : ∀ a ∈ l, R a (g a)) : List.Forall₂ R l (l.map g) := by
  induction l with
  | nil => exact .nil
  | cons a l ih => exact .cons (h a List.mem_cons_self) (ih (fun b hb => h b (List.mem_cons_of_mem _ hb)))

/-- What is known about the tables of the maps. -/
structure OriginsOf (T : Origins) (smV smF base : Nat) (numF : Nat) : Prop where
  vertex : ∀ v, smV ≤ v → patchVertex T v = some (if v < base then some v else none)
  face : ∀ f, smF ≤ f → f < numF → (T.psCmF[f]?).map (fun x => x + T.smF) = some f

/-- Saving one patch: `l'` are its polygons (in the tables with the reversed ones), `l` the original ones, `polys` the original polygons or their reversed versions. -/
theorem save_one {s : Two} {T : Origins} {numF : Nat} (hr : Reachable d m0) (hv : m0.vRem = []) (OT : OriginsOf T smV smF base numF) {polys : List (List Nat)} {faceOf : Nat → Option Nat} {popV popF : Bool} {w : Wishes}
    {threads : Option Nat} {place : Place} {k : Nat} {l l' : List Nat} {asIs : Bool} (hk : s.patches[k]? = some l') (has : (k % n == k) = asIs) (hne : l' ≠ []) (hnd : l.Nodup) (hnd' : l'.Nodup)
    (face : ∀ i ∈ l', ∃ p, s.polys[i]? = some p ∧ Round m0 p ∧ (∀ h ∈ p, LiveH m0 h) ∧ (p.map m0.target).Nodup ∧ ∀ h ∈ p, smV ≤ m0.target h)
    (ends : ∀ i ∈ l', ∀ j ∈ l', ∀ p q x y, s.polys[i]? = some p → s.polys[j]? = some q → x ∈ p → y ∈ q → src m0 x = src m0 y → m0.target x = m0.target y → i = j)
    (hlt : ∀ j ∈ l, j < polys.length)
    (rel : List.Forall₂ (fun i j => corners m0 s.polys i ~r corners m0 (if asIs then polys else polys.map List.reverse) j ∧ ∃ f, faceOf j = some f ∧ s.faceOf i = some f ∧ smF ≤ f ∧ f < numF) l' l)
    (ht : ∀ t, threads = some t → 0 < t ∧ l'.length + 1024 ≤ 2 ^ 32) (out : List (PatchOut P)) :
    ∃ q, savePatch d m0 base threads T popV popF w n s place out k = some (if wantedAt w place then out ++ [q] else out) ∧ q.place = place ∧
      PatchMeshOf d m0 smV smF base polys faceOf popV popF asIs l q := by
  obtain ⟨r, r0, b1, V, b2, b3, b4, B⟩ := buildPatch_spec (d := d) (m0 := m0) (base := base) (polys := s.polys) (n := m0.nV) hne hnd' (fun j hj => by
      obtain ⟨p, p1, p2, p3, p4, -⟩ := face j hj
      refine ⟨⟨p, p1⟩, ?_⟩
      rw [corners_of p1]
      refine ⟨by rw [List.length_map]; exact p2.three, p4, ?_⟩
      intro v hv'
      obtain ⟨h, hh, rfl⟩ := List.mem_map.1 hv'
      exact ((reachable_wf hr).half _ (p3 h hh)).2.2.1.1)
    (fun i hi j hj hij q h1 h2 => by
      obtain ⟨p, p1, p2, p3, -⟩ := face i hi
      obtain ⟨p', p1', p2', p3', -⟩ := face j hj
      rw [corners_of p1] at h1
      rw [corners_of p1'] at h2
      obtain ⟨x, x1, x2, x3⟩ := round_sides hr p2 p3 h1
      obtain ⟨y, y1, y2, y3⟩ := round_sides hr p2' p3' h2
      exact hij (ends i hi j hj p p' x y p1 p1' x1 y1 (x2.trans y2.symm) (x3.trans y3.symm)))
    threads ht
  have CP : Extract.CopyOf d m0 (if asIs then polys else polys.map List.reverse) r.mesh r0.fromCC l := copy_spec V b4 B hnd (by
      intro j hj
      have := hlt j hj
      cases asIs <;> simpa using this) (rel.imp (fun _ _ h => h.1))
  have hvs : ∀ v ∈ r0.fromCC, smV ≤ v ∧ v < m0.nV := by
    intro v hv'
    obtain ⟨j, hj, hv'⟩ := (V.mem v).1 hv'
    obtain ⟨p, p1, p2, p3, -, p5⟩ := face j hj
    rw [corners_of p1] at hv'
    obtain ⟨h, hh, rfl⟩ := List.mem_map.1 hv'
    exact ⟨p5 h hh, ((reachable_wf hr).half _ (p3 h hh)).2.2.1.1⟩
  have hvm : (List.range r.mesh.numVertices).mapM (fun i => (r.fromCC[i]?).bind (patchVertex T)) = some (r0.fromCC.map (fun v => if v < base then some v else none)) := by
    rw [CP.numV, b2]
    exact mapM_range (forall₂_map_self (fun v hv' => OT.vertex v (hvs v hv').1))
  obtain ⟨fm, hfm, hfm'⟩ : ∃ fm, (List.range r.mesh.numFaces).mapM (fun i => (r.faces[i]?).bind (patchFace T s.faceOf)) = some fm ∧ List.Forall₂ (fun i f => faceOf i = some f ∧ smF ≤ f) l fm := by
    rw [CP.numF, b4, ← rel.length_eq]
    refine ⟨l.map (fun j => (faceOf j).getD 0), mapM_range ?_, forall₂_map_self (fun j hj => ?_)⟩
    · clear CP b4 B V hnd' face ends hne hk ht b1 hlt hnd
      induction rel with
      | nil => exact .nil
      | cons r _ ih =>
        refine .cons ?_ ih
        obtain ⟨-, f, f1, f2, f3, f4⟩ := r
        unfold patchFace
        simp only [f2, Option.bind_some, OT.face f f3 f4, f1, Option.getD_some]
    · obtain ⟨i, hi, rfl⟩ := List.getElem_of_mem hj
      have hlen := rel.length_eq
      obtain ⟨-, f, f1, -, f3, -⟩ := (List.forall₂_iff_get.1 rel).2 i (by omega) hi
      simp only [List.get_eq_getElem] at f1
      rw [f1]; exact ⟨rfl, f3⟩
  refine ⟨⟨place, asIs, r.mesh, r.seams, if popV then r0.fromCC.map (fun v => if v < base then some v else none) else [], if popF then fm else []⟩, ?_, rfl, ⟨rfl, ⟨r0.fromCC, CP, fun v h => (hvs v h).1, ?_, ?_⟩, ?_⟩⟩
  · unfold savePatch
    split
    · rw [hk, Option.bind_some, b1, Option.bind_some, hvm, hfm, has]
      cases popV <;> cases popF <;> rfl
    · rfl
  · intro i
    simp only
    rw [b3, V.seams, List.mem_filter, List.mem_range, isSeamVertex, markSeam]
    have hnv : m0.numVertices = m0.nV := by simp [Mesh.numVertices, hv]
    constructor
    · rintro ⟨h1, h2⟩
      refine ⟨_, List.getElem?_eq_getElem h1, ?_⟩
      have h3 := (hvs _ (List.getElem_mem h1)).2
      rw [List.getD_eq_getElem?_getD (l := r0.fromCC), List.getElem?_eq_getElem h1, Option.getD_some, List.getD_eq_getElem?_getD, List.getElem?_map, List.getElem?_range (by omega)] at h2
      simpa using h2
    · rintro ⟨v, h1, h2⟩
      have h3 := (hvs v (List.mem_of_getElem? h1)).2
      refine ⟨(List.getElem?_eq_some_iff.1 h1).1, ?_⟩
      rw [List.getD_eq_getElem?_getD (l := r0.fromCC), h1, Option.getD_some, List.getD_eq_getElem?_getD, List.getElem?_map, List.getElem?_range (by omega)]
      simpa using h2
  · intro h; simp [h]
  · intro h; simpa [h] using hfm'

/-- A list of patches at the same place. -/
theorem save_list {threads : Option Nat} {T : Origins} {popV popF : Bool} {w : Wishes} {s : Two} {place : Place} {Q : Nat → PatchOut P → Prop} : ∀ (L : List Nat),
    (∀ k ∈ L, ∀ out, ∃ q, savePatch d m0 base threads T popV popF w n s place out k = some (if wantedAt w place then out ++ [q] else out) ∧ Q k q) →
    ∀ out, ∃ qs, L.foldlM (savePatch d m0 base threads T popV popF w n s place) out = some (out ++ qs) ∧ List.Forall₂ Q (if wantedAt w place then L else []) qs := by
  intro L
  induction L with
  | nil => intro _ out; exact ⟨[], by simp, by split <;> exact .nil⟩
  | cons k L ih =>
    intro h out
    obtain ⟨q, q1, q2⟩ := h k List.mem_cons_self out
    obtain ⟨qs, e1, e2⟩ := ih (fun x hx => h x (List.mem_cons_of_mem _ hx)) (if wantedAt w place then out ++ [q] else out)
    rw [List.foldlM_cons, q1]
    by_cases hw : wantedAt w place
    · simp only [hw, if_true] at e1 e2 ⊢
      exact ⟨q :: qs, by show List.foldlM _ _ L = _; rw [e1]; simp, .cons q2 e2⟩
    · simp only [hw, if_false] at e1 e2 ⊢
      exact ⟨qs, e1, e2⟩

theorem meaning_ne {table ext : List (Nat × Nat)} {red blue : List Nat} {f : Bool → Place} (h : meaning table red blue ext = some f) : f true ≠ f false := by
  cases ext with
  | nil =>
    unfold meaning at h
    cases hc : colourOf red blue 0 with
    | none => rw [hc] at h; cases h
    | some a =>
      rw [hc] at h
      obtain rfl := Option.some.inj h
      cases a <;> decide
  | cons e ext =>
    unfold meaning at h
    simp only at h
    cases hp : patchOf table e.1 with
    | none => rw [hp] at h; cases h
    | some k =>
      rw [hp, Option.bind_some] at h
      cases hc : colourOf red blue k with
      | none => rw [hc] at h; cases h
      | some a =>
        rw [hc] at h
        obtain rfl := Option.some.inj h
        cases a <;> decide

theorem filter_all {qs : List (PatchOut P)} {place pl : Place} {as asIs : Bool} (h : ∀ q ∈ qs, q.place = pl ∧ q.asIs = as) :
    qs.filter (fun q => q.place = place ∧ q.asIs = asIs) = if pl = place ∧ as = asIs then qs else [] := by
  split
  · rename_i hc
    rw [List.filter_eq_self]
    intro q hq
    obtain ⟨h1, h2⟩ := h q hq
    rw [h1, h2]; simpa using hc
  · rename_i hc
    rw [List.filter_eq_nil_iff]
    intro q hq
    obtain ⟨h1, h2⟩ := h q hq
    rw [h1, h2]; simpa using hc

theorem forall₂_right {α β : Type} {R : α → β → Prop} {l : List α} {l' : List β} (h : List.Forall₂ R l l') : ∀ b ∈ l', ∃ a ∈ l, R a b := by
  induction h with
  | nil => intro b hb; cases hb
  | cons r _ ih =>
    intro b hb
    rcases List.mem_cons.1 hb with rfl | hb
    · exact ⟨_, List.mem_cons_self, r⟩
    · obtain ⟨a, h1, h2⟩ := ih b hb
      exact ⟨a, List.mem_cons_of_mem _ h1, h2⟩

/-- All patches, when each of them can be saved. `S asIs k q` means that `q` is made from patch `k`. -/
theorem save_all {threads : Option Nat} {T : Origins} {popV popF : Bool} {w : Wishes} {s : Two} {S : Bool → Nat → PatchOut P → Prop} (hS : ∀ as k q, S as k q → q.asIs = as) {f : Bool → Place}
    (hf : f true ≠ f false) {red blue : List Nat} (hnd : (red ++ blue).Nodup) (first : Nat)
    (asIs : ∀ k ∈ red ++ blue, ∀ place out, ∃ q, savePatch d m0 base threads T popV popF w n s place out k = some (if wantedAt w place then out ++ [q] else out) ∧ q.place = place ∧ S true k q)
    (rev : ∀ i k, (red ++ blue)[i]? = some k → ∀ place out, ∃ q, savePatch d m0 base threads T popV popF w n s place out (first + i) = some (if wantedAt w place then out ++ [q] else out) ∧
      q.place = place ∧ S false k q) :
    ∃ out, savePatches d m0 base threads T popV popF w n s f (merged first red blue) = some out ∧
      ∀ (place : Place) (as : Bool), ∃ ks : List Nat, ks.Nodup ∧ (∀ k, k ∈ ks ↔ wantedAt w place = true ∧ (colourOf red blue k).map f = some place) ∧
        List.Forall₂ (S as) ks (out.filter (fun q => q.place = place ∧ q.asIs = as)) := by
  -- the reversed patches of a part of the list
  have shift : ∀ (pre l : List Nat) (a : Nat), (∀ i k, l[i]? = some k → (red ++ blue)[pre.length + i]? = some k) → a = first + pre.length → ∀ place out,
      ∃ qs, (oppositesOf a l).foldlM (savePatch d m0 base threads T popV popF w n s place) out = some (out ++ qs) ∧
        List.Forall₂ (fun k q => q.place = place ∧ S false k q) (if wantedAt w place then l else []) qs := by
    intro pre l a hl ha place out
    obtain ⟨qs, e1, e2⟩ := save_list (d := d) (m0 := m0) (base := base) (n := n) (threads := threads) (T := T) (popV := popV) (popF := popF) (w := w) (s := s) (place := place)
      (Q := fun k' q => q.place = place ∧ ∀ i k, k' = a + i → l[i]? = some k → S false k q) (oppositesOf a l) (by
        intro k' hk' out
        unfold oppositesOf at hk'
        rw [List.mem_range'_1] at hk'
        have hlt : k' - a < l.length := by omega
        have hk := List.getElem?_eq_getElem hlt
        obtain ⟨q, q1, q2, q3⟩ := rev (pre.length + (k' - a)) _ (hl _ _ hk) place out
        have : first + (pre.length + (k' - a)) = k' := by omega
        rw [this] at q1
        refine ⟨q, q1, q2, ?_⟩
        intro i k hi hk''
        have : i = k' - a := by omega
        subst this
        rw [hk] at hk''
        obtain rfl := Option.some.inj hk''
        exact q3) out
    refine ⟨qs, e1, ?_⟩
    split
    · rename_i hw
      rw [if_pos hw] at e2
      have hlen := e2.length_eq
      unfold oppositesOf at e2 hlen
      rw [List.forall₂_iff_get] at e2 ⊢
      rw [List.length_range'] at hlen
      refine ⟨hlen, ?_⟩
      intro i h1 h2
      have := e2.2 i (by simpa using h1) h2
      simp only [List.get_eq_getElem, List.getElem_range', Nat.one_mul] at this
      exact ⟨this.1, this.2 i _ rfl (List.getElem?_eq_getElem h1)⟩
    · rename_i hw
      rw [if_neg hw] at e2; cases e2; exact .nil
  have plain : ∀ (l : List Nat), (∀ k ∈ l, k ∈ red ++ blue) → ∀ place out,
      ∃ qs, l.foldlM (savePatch d m0 base threads T popV popF w n s place) out = some (out ++ qs) ∧ List.Forall₂ (fun k q => q.place = place ∧ S true k q) (if wantedAt w place then l else []) qs :=
    fun l hl place out => save_list l (fun k hk out => asIs k (hl k hk) place out) out
  obtain ⟨q1, e1, r1⟩ := plain red (fun k hk => List.mem_append.2 (.inl hk)) (f true) []
  obtain ⟨q2, e2, r2⟩ := shift [] red first (fun i k hk => by rw [List.length_nil, Nat.zero_add, List.getElem?_append_left (List.getElem?_eq_some_iff.1 hk).1]; exact hk) rfl (f true) ([] ++ q1)
  obtain ⟨q3, e3, r3⟩ := plain blue (fun k hk => List.mem_append.2 (.inr hk)) (f false) ([] ++ q1 ++ q2)
  obtain ⟨q4, e4, r4⟩ := shift red blue (first + red.length) (fun i k hk => by rw [List.getElem?_append_right (by omega), Nat.add_sub_cancel_left]; exact hk) rfl (f false) ([] ++ q1 ++ q2 ++ q3)
  refine ⟨[] ++ q1 ++ q2 ++ q3 ++ q4, ?_, ?_⟩
  · unfold savePatches merged
    simp only [List.foldlM_cons, List.foldlM_nil, List.foldlM_append, e1, e2, e3, e4, Option.bind_eq_bind, Option.bind_some, Option.pure_def]
  · have all : ∀ {l : List Nat} {qs : List (PatchOut P)} {pl : Place} {as : Bool}, List.Forall₂ (fun k q => q.place = pl ∧ S as k q) l qs → ∀ q ∈ qs, q.place = pl ∧ q.asIs = as := by
      intro l qs pl as h q hq
      obtain ⟨k, -, h1, h2⟩ := forall₂_right h q hq
      exact ⟨h1, hS _ _ _ h2⟩
    have hdis : ∀ k, k ∈ red → k ∉ blue := fun k h1 h2 => (List.nodup_append.1 hnd).2.2 k h1 k h2 rfl
    have hcol : ∀ k (a : Bool), colourOf red blue k = some a ↔ k ∈ (if a then red else blue) := by
      intro k a
      unfold colourOf
      by_cases h1 : k ∈ red
      · have h2 := hdis k h1
        cases a <;> simp [h1, h2]
      · by_cases h2 : k ∈ blue
        · cases a <;> simp [h1, h2]
        · cases a <;> simp [h1, h2]
    intro place as
    obtain ⟨a, ha, ha'⟩ : ∃ a, f a = place ∧ f (!a) ≠ place := by
      cases h1 : f true <;> cases h2 : f false <;> cases place <;> first | exact absurd (h1.trans h2.symm) hf | exact ⟨true, h1, by simp [h2]⟩ | exact ⟨false, h2, by simp [h1]⟩
    refine ⟨if wantedAt w place then (if a then red else blue) else [], ?_, ?_, ?_⟩
    · split
      · have := List.nodup_append.1 hnd
        cases a
        · exact this.2.1
        · exact this.1
      · exact List.nodup_nil
    · intro k
      have h0 : (colourOf red blue k).map f = some place ↔ k ∈ (if a then red else blue) := by
        rw [← hcol, Option.map_eq_some_iff]
        constructor
        · rintro ⟨b, b1, b2⟩
          rw [b1]
          cases a <;> cases b <;> simp_all
        · intro h; exact ⟨a, h, ha⟩
      rw [h0]
      by_cases hw : wantedAt w place = true
      · simp [hw]
      · simp [hw]
    · rw [List.nil_append, List.filter_append, List.filter_append, List.filter_append, filter_all (all r1), filter_all (all r2), filter_all (all r3), filter_all (all r4)]
      have fin : ∀ {l : List Nat} {qs : List (PatchOut P)} {b : Bool}, b = as → List.Forall₂ (fun k q => q.place = place ∧ S b k q) (if wantedAt w place then l else []) qs →
          List.Forall₂ (S as) (if wantedAt w place then l else []) qs := by
        intro l qs b hb h; subst hb; exact h.imp (fun _ _ h => h.2)
      cases a
      · simp only [Bool.not_false] at ha'
        rw [ha] at r3 r4
        simp only [ha, ha', false_and, if_false, List.nil_append, true_and]
        cases as
        · simpa using fin rfl r4
        · simpa using fin rfl r3
      · simp only [Bool.not_true] at ha'
        rw [ha] at r1 r2
        simp only [ha, ha', false_and, if_false, List.append_nil, true_and]
        cases as
        · simpa using fin rfl r2
        · simpa using fin rfl r1

end Mcut.Patches
